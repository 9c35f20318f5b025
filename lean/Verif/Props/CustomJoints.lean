import Verif.Model.CustomJoints
import Verif.Props.Twist
import Verif.Props.Draw
import Verif.Props.Registry
import Verif.Props.Xml
import Verif.Props.Setup

/-! # Joints with random axes: rr, rr_imp, rsaddle -/

namespace RingLib
open maths jcalc algebra random generator

variable {K ν γ : Type}

/-! ## registration -/

/-- registering with `overwrite=True` a model with the right number of axes -/
theorem register_overwrite {α π χ ρ : Type} {r : Registry α π χ ρ ν γ} (hr : r.Consistent)
    {t : String} (hd : t ≠ "default") (jm : RegModel α π χ ρ) (q : Nat) (qd : Option Nat)
    (hm : jm.motion.length = qd.getD q) :
    ∃ r', register_new_joint_type t jm q qd true r = (.ok (), r') ∧ r'.Knows t q (qd.getD q) jm ∧
      (∀ t' ≠ t, r.SameAt r' t') ∧ r'.Consistent := by
  have hs := register_state hr t jm q qd true
  have h : ∃ r', register_new_joint_type t jm q qd true r = (.ok (), r') := by
    rw [register_run hr, if_neg hd, if_neg (by simp)]
    dsimp only
    rw [if_pos hm]
    exact ⟨_, rfl⟩
  obtain ⟨r', h⟩ := h
  obtain ⟨h1, -, h3, -⟩ := C61_success hr h
  refine ⟨r', h, h1, h3, ?_⟩
  have := hs.1
  rw [h] at this
  exact this

/-- C79: the three joints can be registered, at any time and again: afterwards the joint is known
with its widths, as many axes as velocities, and every other joint is as before. -/
theorem C79_register (R : Rng K) {r : Registry ℝ AxisParams MotionConfig (DrawFn K) ν γ}
    (hr : r.Consistent) :
    (∃ r', register_rr_joint R r = (.ok (), r') ∧ r'.Knows "rr" 1 1 (rr_model R) ∧
      (∀ t ≠ "rr", r.SameAt r' t) ∧ r'.Consistent) ∧
    (∀ (c : MotionConfig) (a : ℝ) (name : String), name ≠ "default" →
      ∃ r', register_rr_imp_joint R c a name r = (.ok (), r') ∧
        r'.Knows name 2 2 (rr_imp_model R c a) ∧ (∀ t ≠ name, r.SameAt r' t) ∧ r'.Consistent) ∧
    (∃ r', register_rsaddle_joint R r = (.ok (), r') ∧ r'.Knows "rsaddle" 2 2 (rsaddle_model R) ∧
      (∀ t ≠ "rsaddle", r.SameAt r' t) ∧ r'.Consistent) :=
  ⟨register_overwrite hr (by decide) _ 1 none rfl,
    fun c a _ hn => register_overwrite hr hn (rr_imp_model R c a) 2 (some 2) rfl,
    register_overwrite hr (by decide) _ 2 none rfl⟩

/-! ## drawn axes -/

theorem rotate_unit_dot {q : Quat ℝ} (hq : q.IsUnit) (a b : Vec3 ℝ) :
    (rotate a q).dot (rotate b q) = a.dot b := (C12_rotate_isometry hq a b).1

/-- the four normal numbers of one quaternion are not all (numerically) zero -/
def DrawnQuat (R : Rng K) (key : K) : Prop := ∃ c < 4, 1e-8 < |R.normal key 4 c|

theorem quat_random1_ok {R : Rng K} {key : K} (hd : DrawnQuat R key) :
    (quat_random1 R key Real.pi).IsUnit := by
  unfold quat_random1
  dsimp only
  rw [if_pos rfl]
  apply pow_unit
  apply safe_normalize4_unit
  obtain ⟨c, hc, hlt⟩ := hd
  rintro ⟨a0, a1, a2, a3⟩
  unfold isclose0 at a0 a1 a2 a3
  dsimp only at a0 a1 a2 a3
  interval_cases c
  · exact absurd hlt (not_lt.2 a0)
  · exact absurd hlt (not_lt.2 a1)
  · exact absurd hlt (not_lt.2 a2)
  · exact absurd hlt (not_lt.2 a3)

/-- C79: the axis that is drawn for an rr joint has length one. -/
theorem C79_rr_axis (R : Rng K) (key : K) (hd : DrawnQuat R key) :
    let a := (_draw_random_joint_axis R key).axis "joint_axes"
    a.dot a = 1 := by
  have e : (_draw_random_joint_axis R key).axis "joint_axes" =
      rotate ⟨1, 0, 0⟩ (quat_random1 R key Real.pi) := rfl
  dsimp only
  rw [e, rotate_unit_dot (quat_random1_ok hd)]
  norm_num [Vec3.dot]

/-- C79: the two axes that are drawn for an rr_imp joint have length one and are perpendicular. -/
theorem C79_rr_imp_axes (R : Rng K) (key : K) (hd : DrawnQuat R (R.split key 2 1)) :
    let a := (_draw_rr_imp_axes R key).axis "joint_axes"
    let b := (_draw_rr_imp_axes R key).axis "residual"
    a.dot a = 1 ∧ b.dot b = 1 ∧ a.dot b = 0 := by
  have e1 : (_draw_rr_imp_axes R key).axis "joint_axes" =
      rotate ⟨0, 0, 1⟩ (quat_random1 R (R.split key 2 1) Real.pi) := rfl
  have e2 : (_draw_rr_imp_axes R key).axis "residual" =
      rotate ⟨Real.cos (R.uniformIn (R.split key 2 0) 0 (2 * Real.pi)),
        Real.sin (R.uniformIn (R.split key 2 0) 0 (2 * Real.pi)), 0⟩
        (quat_random1 R (R.split key 2 1) Real.pi) := rfl
  have hu := quat_random1_ok hd
  dsimp only
  rw [e1, e2]
  simp only [rotate_unit_dot hu]
  have := Real.sin_sq_add_cos_sq (R.uniformIn (R.split key 2 0) 0 (2 * Real.pi))
  refine ⟨by norm_num [Vec3.dot], ?_, by norm_num [Vec3.dot]⟩
  simp only [Vec3.dot]
  linear_combination this

/-- C79: the two axes that are drawn for an rsaddle joint have length one. -/
theorem C79_rsaddle_axes (R : Rng K) (key : K) (hd : ∀ i < 2, DrawnNonzero R key 2 i) (i : Nat)
    (hi : i < 2) :
    let a := (_draw_rsaddle_axes R key).axis "joint_axes" i
    a.dot a = 1 := by
  obtain ⟨h1, h2⟩ := quat_random_ok (R := R) key 2 Real.pi_pos.le le_rfl hd
  have e : (_draw_rsaddle_axes R key).axis "joint_axes" i =
      ((quat_random R key 2 Real.pi).map (rotate ⟨1, 0, 0⟩)).getD i 0 := rfl
  have hi' : i < (quat_random R key 2 Real.pi).length := by rw [h1]; exact hi
  dsimp only
  rw [e, List.getD_eq_getElem?_getD, List.getElem?_map, List.getElem?_eq_getElem hi']
  show (rotate _ _).dot (rotate _ _) = 1
  rw [rotate_unit_dot (h2 _ (List.getElem_mem _)).1]
  norm_num [Vec3.dot]

open io in
/-- C79: initialising the parameters of a system with rr joints gives every link an axis of its own,
drawn from its own key, of length one. -/
theorem C79_params {α : Type} [Field α] [DecidableEq α] (R : Rng K) {J : JointInit AxisParams K}
    {s : System α AxisParams}
    (hJ : J.Ok s.link_types) (hrr : J.init "rr" = some (some (_draw_random_joint_axis R)))
    (hmem : "rr" ∈ s.link_types) (hd : ∀ key, DrawnQuat R key) (key : K) :
    ∃ jp rows, _init_joint_params J key s = .ok { s with joint_params := jp } ∧
      jp.lookup "rr" = some rows ∧ rows.length = s.link_parents.length ∧
      ∀ p ∈ rows, (p.axis "joint_axes").dot (p.axis "joint_axes") = 1 := by
  obtain ⟨jp, h1, h2, -, -⟩ := init_params_ok hJ key
  obtain ⟨ks, e1, e2⟩ := h2.drawn "rr" hmem (by decide) _ hrr
  refine ⟨jp, _, h1, e2, by simp [e1], fun p hp => ?_⟩
  obtain ⟨k, -, rfl⟩ := List.mem_map.1 hp
  exact C79_rr_axis R k (hd k)

/-! ## transforms -/

theorem axis_pow {k : Vec3 ℝ} (hk : k.dot k = 1) : k.x ^ 2 + k.y ^ 2 + k.z ^ 2 = 1 := by
  simp only [Vec3.dot] at hk
  linear_combination hk

theorem rot_axis_eq {k : Vec3 ℝ} (hk : k.dot k = 1) (φ : ℝ) :
    quat_rot_axis k φ = rotQuat k (-φ) := by
  rw [quat_rot_axis_eq, safe_normalize_of_unit (axis_pow hk)]

theorem turn_unit {k : Vec3 ℝ} (hk : k.dot k = 1) (φ : ℝ) : (quat_rot_axis k φ).IsUnit := by
  rw [rot_axis_eq hk]
  exact rotQuat_unit (axis_pow hk) _

/-- a rotation leaves its axis -/
theorem rotate_own_axis {k : Vec3 ℝ} (hk : k.dot k = 1) (φ : ℝ) :
    rotate k (quat_rot_axis k φ) = k := by
  rw [rot_axis_eq hk]
  have h1 := axis_pow hk
  have h2 := Real.sin_sq_add_cos_sq (-φ / 2)
  ext
  · simp only [rotate_x, rotQuat]
    linear_combination k.x * h2 + k.x * Real.sin (-φ / 2) ^ 2 * h1
  · simp only [rotate_y, rotQuat]
    linear_combination k.y * h2 + k.y * Real.sin (-φ / 2) ^ 2 * h1
  · simp only [rotate_z, rotQuat]
    linear_combination k.z * h2 + k.z * Real.sin (-φ / 2) ^ 2 * h1

/-- the part of a turned vector along itself, for vectors perpendicular to the axis -/
theorem dot_rotate_perp {k v : Vec3 ℝ} (hk : k.dot k = 1) (hv : v.dot v = 1) (hp : v.dot k = 0)
    (φ : ℝ) : v.dot (rotate v (quat_rot_axis k φ)) = Real.cos φ := by
  rw [rot_axis_eq hk]
  have h2 := Real.sin_sq_add_cos_sq (-φ / 2)
  have h3 : Real.cos φ = 2 * Real.cos (-φ / 2) ^ 2 - 1 := by
    rw [← Real.cos_two_mul]
    rw [show 2 * (-φ / 2) = -φ by ring, Real.cos_neg]
  simp only [Vec3.dot] at hk hv hp
  rw [h3]
  simp only [Vec3.dot, rotate_x, rotate_y, rotate_z, rotQuat]
  set c := Real.cos (-φ / 2)
  set s := Real.sin (-φ / 2)
  linear_combination (c ^ 2 - s ^ 2) * hv + 2 * s ^ 2 * (v.x * k.x + v.y * k.y + v.z * k.z) * hp -
    s ^ 2 * (v.x * v.x + v.y * v.y + v.z * v.z) * hk - h2

/-- C79: an rr joint turns about its axis: the transform is a rotation that keeps the origin and the
points of the axis, is the identity for angle zero, and angles add up. -/
theorem C79_rr_transform {p : AxisParams}
    (hp : (p.axis "joint_axes").dot (p.axis "joint_axes") = 1) :
    (∀ φ, (_rr_transform [φ] p).IsUnit ∧ (_rr_transform [φ] p).pos = 0 ∧
      ∀ c : ℝ, (_rr_transform [φ] p).point (.smul c (p.axis "joint_axes")) =
        .smul c (p.axis "joint_axes")) ∧
    _rr_transform [0] p = .zero ∧
    ∀ φ ψ, transform_mul (_rr_transform [ψ] p) (_rr_transform [φ] p) = _rr_transform [φ + ψ] p := by
  have e : ∀ φ, _rr_transform [φ] p = ⟨0, quat_rot_axis (p.axis "joint_axes") φ⟩ := fun φ => rfl
  refine ⟨fun φ => ⟨turn_unit hp φ, rfl, fun c => ?_⟩, ?_, fun φ ψ => ?_⟩
  · rw [e]
    simp only [Transform.point]
    rw [sub_zero, rotate_smul, rotate_own_axis hp]
  · rw [e, rot_axis_eq hp]
    simp [rotQuat, Transform.zero, unitQuat]
  · rw [e, e, e]
    simp only [transform_mul]
    rw [rotate_zero, zero_add, rot_axis_eq hp, rot_axis_eq hp, rot_axis_eq hp,
      rotQuat_add (axis_pow hp)]
    congr 2
    ring

/-- C79: an rr_imp joint without residual angle is an rr joint. -/
theorem C79_rr_imp_ideal (p : AxisParams) (φ : ℝ) :
    _rr_imp_transform [φ, 0] p = _rr_transform [φ] p := by
  have e : quat_rot_axis (p.axis "residual") 0 = unitQuat := by
    simp [quat_rot_axis, unitQuat]
  show (⟨0, quat_mul (quat_rot_axis (p.axis "residual") 0) (quat_rot_axis (p.axis "joint_axes") φ)⟩ :
    Transform ℝ) = ⟨0, quat_rot_axis (p.axis "joint_axes") φ⟩
  rw [e]
  congr 1
  exact (C12_quat_mul_unit _).1

/-- the rotation between the declared and the actual pose of an rr_imp joint is the residual
rotation, by the residual angle: the primary axis is tilted by it -/
theorem C79_rr_imp_tilt {p : AxisParams}
    (h1 : (p.axis "joint_axes").dot (p.axis "joint_axes") = 1)
    (h2 : (p.axis "residual").dot (p.axis "residual") = 1)
    (h3 : (p.axis "joint_axes").dot (p.axis "residual") = 0) (φ ψ : ℝ) :
    (_rr_imp_transform [φ, ψ] p).IsUnit ∧ (_rr_imp_transform [φ, ψ] p).pos = 0 ∧
    (p.axis "joint_axes").dot ((_rr_imp_transform [φ, ψ] p).point (p.axis "joint_axes")) =
      Real.cos ψ := by
  have e : _rr_imp_transform [φ, ψ] p = ⟨0, quat_mul (quat_rot_axis (p.axis "residual") ψ)
    (quat_rot_axis (p.axis "joint_axes") φ)⟩ := rfl
  refine ⟨?_, rfl, ?_⟩
  · rw [e]
    exact (C12_unit_closed (turn_unit h2 ψ) (turn_unit h1 φ)).1
  · rw [e]
    simp only [Transform.point]
    rw [sub_zero, C12_rotate_mul, rotate_own_axis h1, dot_rotate_perp h2 h1 h3]

/-! ## velocities -/

/-- two turns, one after the other -/
theorem twist_two_axes {k1 k2 : Vec3 ℝ} (h1 : k1.dot k1 = 1) (h2 : k2.dot k2 = 1) {a b : ℝ → ℝ}
    {a' b' t : ℝ} (ha : HasDerivAt a a' t) (hb : HasDerivAt b b' t) :
    HasTwist (fun s => ⟨0, quat_mul (quat_rot_axis k2 (b s)) (quat_rot_axis k1 (a s))⟩)
      ⟨.smul a' (rotate k1 (quat_rot_axis k2 (b t))) + .smul b' k2, 0⟩ t := by
  have tA := twist_of_rate (rate_rot_axis (axis_pow h1) ha) (deriv_const 0 t)
  have tB := twist_of_rate (rate_rot_axis (axis_pow h2) hb) (deriv_const 0 t)
  refine twist_congr (twist_mul tA tB (fun s => turn_unit h1 (a s)) (turn_unit h2 (b t)))
    (fun s => ?_) ?_
  · simp only [transform_mul]
    rw [rotate_zero, zero_add]
  · simp only [transform_motion, rotate_zero]
    ext <;> simp [rotate_smul, rotate_zero, rotate_x, rotate_y, rotate_z] <;> ring

theorem declared_rr (R : Rng K) (p : AxisParams) {u : List ℝ} (hu : u.length = 1) :
    (rr_model R).declared p u = ⟨.smul (u.getD 0 0) (p.axis "joint_axes"), 0⟩ := by
  obtain ⟨a, rfl⟩ := list1 hu
  ext <;> simp [JointModel.declared, rr_model, _rr_motion, Motion.smul]

theorem declared_rr_imp (R : Rng K) (c : MotionConfig) (a : ℝ) (p : AxisParams) {u : List ℝ}
    (hu : u.length = 2) : (rr_imp_model R c a).declared p u =
      ⟨.smul (u.getD 0 0) (p.axis "joint_axes") + .smul (u.getD 1 0) (p.axis "residual"), 0⟩ := by
  obtain ⟨a, b, rfl⟩ := list2 hu
  ext <;> simp [JointModel.declared, rr_imp_model, _rr_imp_motion, Motion.smul]

theorem declared_rsaddle (R : Rng K) (p : AxisParams) {u : List ℝ}
    (hu : u.length = 2) : (rsaddle_model R).declared p u =
      ⟨.smul (u.getD 0 0) (p.axis "joint_axes" 0) + .smul (u.getD 1 0) (p.axis "joint_axes" 1), 0⟩ := by
  obtain ⟨a, b, rfl⟩ := list2 hu
  ext <;> simp [JointModel.declared, rsaddle_model, _rsaddle_motion, Motion.smul, List.range_succ]

/-- C79: when the angle of an rr joint changes, its frame moves with the motion that its axis
declares. -/
theorem C79_rr (R : Rng K) {p : AxisParams}
    (hp : (p.axis "joint_axes").dot (p.axis "joint_axes") = 1) {q : ℝ → List ℝ} {u : List ℝ} {t : ℝ}
    (hu : u.length = 1) (hf : HasDerivAt (fun s => (q s).getD 0 0) (u.getD 0 0) t) :
    HasTwist (fun s => (rr_model R).transform (q s) p) ((rr_model R).declared p u) t := by
  rw [declared_rr R p hu]
  exact twist_congr (twist_of_rate (rate_rot_axis (axis_pow hp) hf) (deriv_const 0 t))
    (fun s => rfl) (by rw [rotate_zero])

/-- C79: the velocity of the frame of an rr_imp joint: the primary axis is seen through the residual
rotation. -/
theorem C79_rr_imp (R : Rng K) (c : MotionConfig) (a : ℝ) {p : AxisParams}
    (h1 : (p.axis "joint_axes").dot (p.axis "joint_axes") = 1)
    (h2 : (p.axis "residual").dot (p.axis "residual") = 1) {q : ℝ → List ℝ} {u : List ℝ} {t : ℝ}
    (hf : ∀ j < 2, HasDerivAt (fun s => (q s).getD j 0) (u.getD j 0) t) :
    HasTwist (fun s => (rr_imp_model R c a).transform (q s) p)
      ⟨.smul (u.getD 0 0) (rotate (p.axis "joint_axes")
          (quat_rot_axis (p.axis "residual") ((q t).getD 1 0))) +
        .smul (u.getD 1 0) (p.axis "residual"), 0⟩ t :=
  twist_congr (twist_two_axes h1 h2 (hf 0 (by decide)) (hf 1 (by decide))) (fun s => rfl) rfl

/-- C79: the same for an rsaddle joint. -/
theorem C79_rsaddle (R : Rng K) {p : AxisParams}
    (h : ∀ i < 2, (p.axis "joint_axes" i).dot (p.axis "joint_axes" i) = 1) {q : ℝ → List ℝ}
    {u : List ℝ} {t : ℝ} (hf : ∀ j < 2, HasDerivAt (fun s => (q s).getD j 0) (u.getD j 0) t) :
    HasTwist (fun s => (rsaddle_model R).transform (q s) p)
      ⟨.smul (u.getD 0 0) (rotate (p.axis "joint_axes" 0)
          (quat_rot_axis (p.axis "joint_axes" 1) ((q t).getD 1 0))) +
        .smul (u.getD 1 0) (p.axis "joint_axes" 1), 0⟩ t :=
  twist_congr (twist_two_axes (h 0 (by decide)) (h 1 (by decide)) (hf 0 (by decide))
    (hf 1 (by decide))) (fun s => rfl) rfl

theorem smul_cancel {c : ℝ} {a b w : Vec3 ℝ} (h : Vec3.smul c a + w = Vec3.smul c b + w) :
    c = 0 ∨ a = b := by
  by_cases hc : c = 0
  · exact .inl hc
  right
  have h' := add_right_cancel h
  have hx := congrArg Vec3.x h'
  have hy := congrArg Vec3.y h'
  have hz := congrArg Vec3.z h'
  simp only [Vec3.smul] at hx hy hz
  exact Vec3.ext (mul_left_cancel₀ hc hx) (mul_left_cancel₀ hc hy) (mul_left_cancel₀ hc hz)

/-- C79, what remains for rr_imp joints: the declared motion is the velocity of the frame exactly if
the joint does not turn about its primary axis, or the residual angle is a whole number of turns. -/
theorem C79_rr_imp_partial (R : Rng K) (c : MotionConfig) (a : ℝ) {p : AxisParams}
    (h1 : (p.axis "joint_axes").dot (p.axis "joint_axes") = 1)
    (h2 : (p.axis "residual").dot (p.axis "residual") = 1)
    (h3 : (p.axis "joint_axes").dot (p.axis "residual") = 0)
    {q : ℝ → List ℝ} {u : List ℝ} {t : ℝ} (hu : u.length = 2)
    (hf : ∀ j < 2, HasDerivAt (fun s => (q s).getD j 0) (u.getD j 0) t) :
    HasTwist (fun s => (rr_imp_model R c a).transform (q s) p)
      ((rr_imp_model R c a).declared p u) t ↔ u.getD 0 0 = 0 ∨ Real.cos ((q t).getD 1 0) = 1 := by
  have tr := C79_rr_imp R c a h1 h2 hf
  rw [declared_rr_imp R c a p hu]
  have hU : ((rr_imp_model R c a).transform (q t) p).IsUnit :=
    (C12_unit_closed (turn_unit h2 ((q t).getD 1 0)) (turn_unit h1 ((q t).getD 0 0))).1
  have hd := dot_rotate_perp h2 h1 h3 ((q t).getD 1 0)
  constructor
  · intro h
    have e := congrArg Motion.ang
      (twist_unique (T := fun s => (rr_imp_model R c a).transform (q s) p) hU tr h)
    rcases smul_cancel e with e | e
    · exact .inl e
    · right
      rw [e, h1] at hd
      exact hd.symm
  · rintro (h | h)
    · have hs : ∀ v : Vec3 ℝ, Vec3.smul (0 : ℝ) v = 0 := fun v => by ext <;> simp [Vec3.smul]
      rw [h, hs] at tr ⊢
      exact tr
    · have hr : rotate (p.axis "joint_axes") (quat_rot_axis (p.axis "residual") ((q t).getD 1 0)) =
          p.axis "joint_axes" := by
        set v := rotate (p.axis "joint_axes") (quat_rot_axis (p.axis "residual") ((q t).getD 1 0))
          with hv
        have hvv : v.dot v = 1 := by rw [hv, rotate_unit_dot (turn_unit h2 _), h1]
        rw [h] at hd
        simp only [Vec3.dot] at hvv hd h1
        set k := p.axis "joint_axes"
        have hs : (v.x - k.x) ^ 2 + (v.y - k.y) ^ 2 + (v.z - k.z) ^ 2 = 0 := by
          linear_combination hvv + h1 - 2 * hd
        have a1 := sq_nonneg (v.x - k.x)
        have a2 := sq_nonneg (v.y - k.y)
        have a3 := sq_nonneg (v.z - k.z)
        ext
        · exact sub_eq_zero.1 (pow_eq_zero_iff (two_ne_zero)|>.1 (by linarith : (v.x - k.x) ^ 2 = 0))
        · exact sub_eq_zero.1 (pow_eq_zero_iff (two_ne_zero)|>.1 (by linarith : (v.y - k.y) ^ 2 = 0))
        · exact sub_eq_zero.1 (pow_eq_zero_iff (two_ne_zero)|>.1 (by linarith : (v.z - k.z) ^ 2 = 0))
      rw [hr] at tr
      exact tr

/-- C79: how wrong the declared motion of an rr_imp joint is: the error of the angular velocity is the
primary velocity times `2 sin (ψ / 2)` with the residual angle `ψ`. -/
theorem C79_rr_imp_error (R : Rng K) (c : MotionConfig) (a : ℝ) {p : AxisParams}
    (h1 : (p.axis "joint_axes").dot (p.axis "joint_axes") = 1)
    (h2 : (p.axis "residual").dot (p.axis "residual") = 1)
    (h3 : (p.axis "joint_axes").dot (p.axis "residual") = 0)
    {q : ℝ → List ℝ} {u : List ℝ} {t : ℝ} (hu : u.length = 2)
    (hf : ∀ j < 2, HasDerivAt (fun s => (q s).getD j 0) (u.getD j 0) t) :
    ∃ m : Motion ℝ, HasTwist (fun s => (rr_imp_model R c a).transform (q s) p) m t ∧
      m.vel = ((rr_imp_model R c a).declared p u).vel ∧
      (m.ang - ((rr_imp_model R c a).declared p u).ang).dot
        (m.ang - ((rr_imp_model R c a).declared p u).ang) =
        (u.getD 0 0 * (2 * Real.sin ((q t).getD 1 0 / 2))) ^ 2 := by
  refine ⟨_, C79_rr_imp R c a h1 h2 hf, ?_, ?_⟩
  · rw [declared_rr_imp R c a p hu]
  rw [declared_rr_imp R c a p hu]
  have hd := dot_rotate_perp h2 h1 h3 ((q t).getD 1 0)
  set v := rotate (p.axis "joint_axes") (quat_rot_axis (p.axis "residual") ((q t).getD 1 0))
    with hv
  have hvv : v.dot v = 1 := by rw [hv, rotate_unit_dot (turn_unit h2 _), h1]
  have hc : Real.cos ((q t).getD 1 0) = 1 - 2 * Real.sin ((q t).getD 1 0 / 2) ^ 2 := by
    have := Real.cos_two_mul ((q t).getD 1 0 / 2)
    rw [show 2 * ((q t).getD 1 0 / 2) = (q t).getD 1 0 by ring] at this
    rw [this]
    have := Real.sin_sq_add_cos_sq ((q t).getD 1 0 / 2)
    linarith
  rw [hc] at hd
  simp only [Vec3.dot, Vec3.sub_x, Vec3.sub_y, Vec3.sub_z, Vec3.add_x, Vec3.add_y, Vec3.add_z,
    Vec3.smul] at hvv hd h1 ⊢
  linear_combination (u.getD 0 0) ^ 2 * (hvv + h1 - 2 * hd)

/-- C79, what remains for rsaddle joints: the declared motion is right exactly if the joint does not
turn about its first axis or the second turn leaves the first axis. -/
theorem C79_rsaddle_partial (R : Rng K) {p : AxisParams}
    (h : ∀ i < 2, (p.axis "joint_axes" i).dot (p.axis "joint_axes" i) = 1)
    {q : ℝ → List ℝ} {u : List ℝ} {t : ℝ} (hu : u.length = 2)
    (hf : ∀ j < 2, HasDerivAt (fun s => (q s).getD j 0) (u.getD j 0) t) :
    HasTwist (fun s => (rsaddle_model R).transform (q s) p)
      ((rsaddle_model R).declared p u) t ↔ u.getD 0 0 = 0 ∨
        rotate (p.axis "joint_axes" 0) (quat_rot_axis (p.axis "joint_axes" 1) ((q t).getD 1 0)) =
          p.axis "joint_axes" 0 := by
  have tr := C79_rsaddle R h hf
  rw [declared_rsaddle R p hu]
  have hU : ((rsaddle_model R).transform (q t) p).IsUnit :=
    (C12_unit_closed (turn_unit (h 1 (by decide)) ((q t).getD 1 0))
      (turn_unit (h 0 (by decide)) ((q t).getD 0 0))).1
  constructor
  · intro h'
    exact smul_cancel (congrArg Motion.ang
      (twist_unique (T := fun s => (rsaddle_model R).transform (q s) p) hU tr h'))
  · rintro (h' | h')
    · have hs : ∀ v : Vec3 ℝ, Vec3.smul (0 : ℝ) v = 0 := fun v => by ext <;> simp [Vec3.smul]
      rw [h', hs] at tr ⊢
      exact tr
    · rw [h'] at tr
      exact tr

/-- C79 does not hold for rr_imp joints, with axes that are drawn for it. -/
theorem C79_rr_imp_fails : ∃ (R : Rng Unit) (p : AxisParams) (q : ℝ → List ℝ) (u : List ℝ), R.Ok ∧
    p = _draw_rr_imp_axes R () ∧ u.length = 2 ∧ (∀ s, (q s).length = 2) ∧
    (∀ j < 2, HasDerivAt (fun s => (q s).getD j 0) (u.getD j 0) 0) ∧
    ∀ c a, ¬ HasTwist (fun s => (rr_imp_model R c a).transform (q s) p)
      ((rr_imp_model R c a).declared p u) 0 := by
  let R : Rng Unit := { constRng 0.5 true with normal := fun _ _ _ => 1 }
  have hd : ∀ k, DrawnQuat R k := fun k => ⟨0, by decide, by show (1e-8 : ℝ) < |1|; norm_num⟩
  have hf : ∀ j < 2, HasDerivAt (fun s : ℝ => ([s, 0.1] : List ℝ).getD j 0)
      (([1, 0] : List ℝ).getD j 0) 0 := by
    intro j hj
    interval_cases j
    · simpa using hasDerivAt_id' _
    · simpa using hasDerivAt_const _ _
  have hok := constRng_ok 0.5 true (by norm_num) (by norm_num)
  obtain ⟨a1, a2, a3⟩ := C79_rr_imp_axes R () (hd _)
  refine ⟨R, _, fun s => [s, 0.1], [1, 0], ?_, rfl, rfl, fun _ => rfl, hf, fun c a => ?_⟩
  · exact ⟨hok.1, hok.2, hok.3, hok.4, hok.5⟩
  rw [C79_rr_imp_partial R c a a1 a2 a3 rfl hf]
  rintro (h | h)
  · norm_num at h
  · have h' : Real.cos (0.1 : ℝ) = 1 := h
    rw [Real.cos_eq_one_iff_of_lt_of_lt (by linarith [Real.pi_pos])
      (by linarith [Real.two_le_pi])] at h'
    norm_num at h'

/-- a stream whose first quaternion is the unit and whose second one turns by 90 degrees -/
noncomputable def quarterRng : Rng Unit :=
  { constRng 0.5 true with normal := fun _ _ j => if j = 0 ∨ j = 4 ∨ j = 7 then 1 else 0 }

theorem quarterRng_axes : (_draw_rsaddle_axes quarterRng ()).axis "joint_axes" 0 = ⟨1, 0, 0⟩ ∧
    (_draw_rsaddle_axes quarterRng ()).axis "joint_axes" 1 = ⟨0, 1, 0⟩ := by
  have e1 : rotate ⟨1, 0, 0⟩ (safe_normalize4 ⟨1, 0, 0, 0⟩) = ⟨1, 0, 0⟩ := by
    rw [safe_normalize4_of_unit (by norm_num)]
    norm_num [rotate, rotate_quat, quat_mul, quat_inv, Quat.vec]
  have e2 : rotate ⟨1, 0, 0⟩ (safe_normalize4 ⟨1, 0, 0, 1⟩) = ⟨0, 1, 0⟩ := by
    have hn : ¬ allclose0' (⟨1, 0, 0, 1⟩ : Quat ℝ) := by
      rintro ⟨h0, -⟩
      unfold isclose0 at h0
      norm_num at h0
    have h1 := norm4_pos hn
    have h2 := norm4_sq (⟨1, 0, 0, 1⟩ : Quat ℝ)
    unfold safe_normalize4
    rw [if_neg hn]
    generalize norm4 (⟨1, 0, 0, 1⟩ : Quat ℝ) = n at h1 h2
    have hne := h1.ne'
    norm_num at h2
    ext <;> norm_num [rotate, rotate_quat, quat_mul, quat_inv, Quat.vec] <;> field_simp <;> nlinarith
  have e : quat_random quarterRng () 2 Real.pi =
      [safe_normalize4 ⟨1, 0, 0, 0⟩, safe_normalize4 ⟨1, 0, 0, 1⟩] := by
    unfold quat_random
    simp [List.range_succ, quarterRng]
  unfold _draw_rsaddle_axes
  rw [e]
  exact ⟨e1, e2⟩

/-- C79 does not hold for rsaddle joints, with axes that are drawn for it. -/
theorem C79_rsaddle_fails : ∃ (R : Rng Unit) (p : AxisParams) (q : ℝ → List ℝ) (u : List ℝ), R.Ok ∧
    p = _draw_rsaddle_axes R () ∧ u.length = 2 ∧ (∀ s, (q s).length = 2) ∧
    (∀ j < 2, HasDerivAt (fun s => (q s).getD j 0) (u.getD j 0) 0) ∧
    ¬ HasTwist (fun s => (rsaddle_model R).transform (q s) p)
      ((rsaddle_model R).declared p u) 0 := by
  have hf : ∀ j < 2, HasDerivAt (fun s : ℝ => ([s, 0.1] : List ℝ).getD j 0)
      (([1, 0] : List ℝ).getD j 0) 0 := by
    intro j hj
    interval_cases j
    · simpa using hasDerivAt_id' _
    · simpa using hasDerivAt_const _ _
  have hok := constRng_ok 0.5 true (by norm_num) (by norm_num)
  obtain ⟨a1, a2⟩ := quarterRng_axes
  refine ⟨quarterRng, _, fun s => [s, 0.1], [1, 0], ⟨hok.1, hok.2, hok.3, hok.4, hok.5⟩, rfl, rfl,
    fun _ => rfl, hf, ?_⟩
  have hu : ∀ i < 2, ((_draw_rsaddle_axes quarterRng ()).axis "joint_axes" i).dot
      ((_draw_rsaddle_axes quarterRng ()).axis "joint_axes" i) = 1 := by
    intro i hi
    interval_cases i
    · rw [a1]; norm_num [Vec3.dot]
    · rw [a2]; norm_num [Vec3.dot]
  rw [C79_rsaddle_partial quarterRng hu rfl hf, a1, a2]
  rintro (h | h)
  · norm_num at h
  · have hd := dot_rotate_perp (k := ⟨0, 1, 0⟩) (v := ⟨1, 0, 0⟩) (by norm_num [Vec3.dot])
      (by norm_num [Vec3.dot]) (by norm_num [Vec3.dot]) (([0, 0.1] : List ℝ).getD 1 0)
    rw [h] at hd
    have h' : Real.cos (0.1 : ℝ) = 1 := by
      rw [show (0.1 : ℝ) = ([0, 0.1] : List ℝ).getD 1 0 from rfl, ← hd]
      norm_num [Vec3.dot]
    rw [Real.cos_eq_one_iff_of_lt_of_lt (by linarith [Real.pi_pos])
      (by linarith [Real.two_le_pi])] at h'
    norm_num at h'

/-! ## drawing -/

theorem mean_bounds {xs : List ℝ} {lo hi : ℝ} (hx : ∀ x ∈ xs, lo ≤ x ∧ x ≤ hi) (hne : xs ≠ []) :
    lo ≤ mean xs ∧ mean xs ≤ hi := by
  have hpos : (0 : ℝ) < xs.length := by
    have := List.length_pos_iff.2 hne
    exact_mod_cast this
  have h1 : lo * xs.length ≤ xs.sum ∧ xs.sum ≤ hi * xs.length := by
    clear hne hpos
    induction xs with
    | nil => simp
    | cons a l ih =>
      have := hx a (by simp)
      have := ih fun x hx' => hx x (by simp [hx'])
      simp only [List.sum_cons, List.length_cons]
      push_cast
      constructor <;> nlinarith
  unfold mean
  rw [le_div_iff₀ hpos, div_le_iff₀ hpos]
  exact h1

/-- the centred angles have mean zero -/
theorem centred_sum (a : ℝ) (xs : List ℝ) : (centred a xs).sum = 0 := by
  unfold centred
  dsimp only
  set ys := xs.map (· * (a * Real.pi / 180 / Real.pi)) with hys
  have h : ∀ (l : List ℝ) (m : ℝ), (l.map (· - m)).sum = l.sum - l.length * m := by
    intro l m
    induction l with
    | nil => simp
    | cons b l ih => simp only [List.map_cons, List.sum_cons, ih, List.length_cons]; push_cast; ring
  rw [h]
  unfold mean
  by_cases h0 : (ys.length : ℝ) = 0
  · have : ys = [] := List.length_eq_zero_iff.1 (by exact_mod_cast h0)
    rw [this]; simp
  · field_simp
    simp

/-- C79: what is drawn for an rr_imp joint: one row of two angles per time step; the first angle is
within `[-π, π]`; the residual angles have mean zero and are smaller than *twice* the given maximum. -/
theorem C79_draw_partial {R : Rng K} (hR : R.Ok) {c c' : MotionConfig} {dt : ℝ} {a : ℝ} (ha : 0 ≤ a)
    (hc : Drawable c dt) (hc' : Drawable { c' with T := c.T } dt)
    (hh : ∀ t, 0 ≤ c.rom_halfsize.at t) (hh' : ∀ t, 0 ≤ c'.rom_halfsize.at t) (kt kv : K)
    (N : Option Nat) :
    ∃ rows, (rr_imp_model R c' a).rcmg_draw_fn c kt kv dt N = some rows ∧
      rows.length = numSteps c.T dt N ∧ (∀ row ∈ rows, row.length = 2 ∧
        (-Real.pi ≤ row.getD 0 0 ∧ row.getD 0 0 ≤ Real.pi) ∧
        |row.getD 1 0| ≤ 2 * (a * Real.pi / 180)) ∧
      (rows.map (·.getD 1 0)).sum = 0 := by
  obtain ⟨q1, e1, l1, b1⟩ := draw_rxyz_ok R hc (R.split kt 2 0) (R.split kv 2 0) N true false 5
    (.inr (.inr ⟨hR, hh⟩))
  obtain ⟨q2, e2, l2, b2⟩ := draw_rxyz_ok R hc' (R.split kt 2 1) (R.split kv 2 1) N true false 5
    (.inr (.inr ⟨hR, hh'⟩))
  have e : (rr_imp_model R c' a).rcmg_draw_fn c kt kv dt N =
      some (hcat (column q1) (column (centred a q2))) := by
    show _draw_rr_imp R c' a c kt kv dt N = _
    unfold _draw_rr_imp
    dsimp only
    rw [e1, e2]
    rfl
  have l3 : (centred a q2).length = q2.length := by simp [centred]
  have hl : q1.length = (centred a q2).length := by rw [l1, l3, l2]
  refine ⟨_, e, ?_, ?_, ?_⟩
  · simp [hcat, column, l3, l1, l2]
  · intro row hrow
    obtain ⟨i, hi, rfl⟩ := List.mem_iff_getElem.1 hrow
    simp only [hcat, column, List.length_zipWith, List.length_map] at hi
    have hi1 : i < q1.length := by omega
    have hi2 : i < (centred a q2).length := by omega
    have er : (hcat (column q1) (column (centred a q2)))[i]'(by simpa [hcat, column] using hi) =
        [q1[i], (centred a q2)[i]] := by simp [hcat, column]
    rw [er]
    refine ⟨rfl, b1 _ (List.getElem_mem _), ?_⟩
    show |(centred a q2)[i]| ≤ _
    have hp := Real.pi_pos
    have hs : ∀ x ∈ q2.map (· * (a * Real.pi / 180 / Real.pi)),
        -(a * Real.pi / 180) ≤ x ∧ x ≤ a * Real.pi / 180 := by
      intro x hx
      obtain ⟨y, hy, rfl⟩ := List.mem_map.1 hx
      obtain ⟨h1, h2⟩ := b2 y hy
      have : a * Real.pi / 180 / Real.pi = a / 180 := by field_simp
      rw [this]
      have h180 : 0 ≤ a / 180 := by positivity
      constructor <;> nlinarith
    have hne : q2.map (· * (a * Real.pi / 180 / Real.pi)) ≠ [] := by
      intro h
      rw [List.map_eq_nil_iff] at h
      rw [l3, h] at hi2
      simp at hi2
    have hm := mean_bounds hs hne
    have hx := hs (q2[i]'(by omega) * (a * Real.pi / 180 / Real.pi))
      (List.mem_map_of_mem (List.getElem_mem _))
    have ei : (centred a q2)[i] = q2[i]'(by omega) * (a * Real.pi / 180 / Real.pi) -
        mean (q2.map (· * (a * Real.pi / 180 / Real.pi))) := by simp [centred]
    rw [ei, abs_le]
    constructor <;> linarith
  · have : (hcat (column q1) (column (centred a q2))).map (·.getD 1 0) = centred a q2 := by
      apply List.ext_getElem
      · simp [hcat, column, hl]
      · intro i h1 h2
        simp [hcat, column]
    rw [this, centred_sum]

/-- a residual motion that goes up to the upper bound and stays there -/
noncomputable def upConfig : MotionConfig :=
  { T := 3.5, t_min := 1.5, t_max := .const 2.5, ang0_min := -3, ang0_max := -3
    dang_min := .const 4, dang_max := .const 5, delta_ang_max := .const 10 }

theorem three_knots {Q : ℝ × ℝ → ℝ × ℝ → Prop} {x0 T b c : ℝ} {kn : List (ℝ × ℝ)}
    (h : IsKnots Q x0 T kn) (hT : T = 3.5) (hs : ∀ y, Q (0, x0) y → y = (2, b))
    (hs' : ∀ y, Q (2, b) y → y = (4, c)) : kn = [(0, x0), (2, b), (4, c)] := by
  have h2 := IsKnots.two_le h (by rw [hT]; norm_num)
  match kn, h, h2 with
  | [], _, h2 => simp at h2
  | [_], _, h2 => simp at h2
  | [a, d], h, _ =>
    exfalso
    have h1 := h.start
    simp at h1
    subst h1
    have hc := h.chain
    rw [List.isChain_pair] at hc
    have := h.beyond d (by simp)
    rw [hs d hc, hT] at this
    norm_num at this
  | a :: d :: e :: l, h, _ =>
    have h1 := h.start
    simp at h1
    subst h1
    have hc := h.chain
    rw [List.isChain_cons_cons, List.isChain_cons_cons] at hc
    obtain ⟨c1, c2, c3⟩ := hc
    have ed := hs d c1
    subst ed
    have ee := hs' e c2
    subst ee
    cases l with
    | nil => rfl
    | cons f l =>
      exfalso
      have := h.inside (4, c) (by simp)
      rw [hT] at this
      norm_num at this

theorem upConfig_drawn : _draw_rxyz (constRng 0.5 true) upConfig () () 1 none =
    some [-3, (Real.pi - 3) / 2, Real.pi, Real.pi] := by
  have hpi := Real.pi_gt_three
  have hpi4 := Real.pi_le_four
  unfold _draw_rxyz
  have e0 : (constRng 0.5 true).uniformIn () upConfig.ang0_min upConfig.ang0_max = -3 := by
    show (constRng 0.5 true).uniformIn () (-3) (-3) = -3
    rw [uniformIn_self]
  show random_angle_over_time (constRng 0.5 true) (upConfig.angleArgs (maths.wrap_to_pi
    ((constRng 0.5 true).uniformIn () upConfig.ang0_min upConfig.ang0_max)) 1 none true false 5)
    () () = _
  rw [e0, maths.wrap_id (by linarith) (by linarith)]
  set A := upConfig.angleArgs (-3) 1 none true false 5 with hA
  have hdt : ∀ k : Unit, (constRng 0.5 true).uniformIn k (1.5 : ℝ) 2.5 = 2 := by
    intro k
    show scaleU 0.5 1.5 2.5 = 2
    unfold scaleU
    norm_num
  have hstep : ∀ (t x : ℝ), -3 ≤ x → ∀ y, AngStep (constRng 0.5 true) A (t, x) y →
      y = (t + 2, Real.pi) := by
    rintro t x hx y ⟨k, k', e1, e2⟩
    have e1' : y.1 = t + 2 := by
      rw [e1]
      show t + (constRng 0.5 true).uniformIn k 1.5 2.5 = t + 2
      rw [hdt]
    have e2' : y.2 = Real.pi := by
      rw [e2]
      show _next_phi (constRng 0.5 true) (A.at t) x k'
        ((constRng 0.5 true).uniformIn k 1.5 2.5) = _
      rw [hdt]
      have c1 : _clip_to_pi (x + 1 * 4 * 2) = Real.pi := by
        unfold _clip_to_pi
        exact min_eq_right (le_max_of_le_left (by linarith))
      have c2 : _clip_to_pi (x + 1 * 5 * 2) = Real.pi := by
        unfold _clip_to_pi
        exact min_eq_right (le_max_of_le_left (by linarith))
      show scaleU 0.5 (max (min (_clip_to_pi (x + 1 * 4 * 2)) (_clip_to_pi (x + 1 * 5 * 2)))
        (-3 - 2 * Real.pi)) (min (max (_clip_to_pi (x + 1 * 4 * 2)) (_clip_to_pi (x + 1 * 5 * 2)))
        (-3 + 2 * Real.pi)) = Real.pi
      rw [c1, c2, min_self, max_self, max_eq_left (by linarith), min_eq_left (by linarith)]
      unfold scaleU
      simp
    exact Prod.ext e1' e2'
  obtain ⟨kn, key, h1, h2⟩ := angle_knots_eq (constRng 0.5 true) A
    (show (0 : ℝ) < 1.5 by norm_num) (show (0 : ℝ) ≤ 3.5 by norm_num) () ()
  have hkn := three_knots (b := Real.pi) (c := Real.pi) h1 rfl
    (fun y hy => by
      have := hstep 0 _ le_rfl y hy
      rw [this]; norm_num)
    (fun y hy => by
      have := hstep 2 _ (by linarith) y hy
      rw [this]; norm_num)
  unfold random_angle_over_time
  rw [h2, hkn]
  have hst : sample_times 3.5 1 none = [0, 1, 2, 3] := by
    have : ⌈(3.5 : ℝ) / 1⌉ = 4 := by
      rw [Int.ceil_eq_iff]
      norm_num
    unfold sample_times
    rw [Option.getD_none, this]
    simp [List.range_succ]
  have hl : layout (⌊(3.5 : ℝ) / 1.5⌋.toNat + 1)
      (([(0, -3), (2, Real.pi), (4, Real.pi)] : List (ℝ × ℝ)).map (knotRow 1)) =
      [(0, -3), (2, Real.pi), (4, Real.pi)] := by
    have : ⌊(3.5 : ℝ) / 1.5⌋ = 2 := by
      rw [Int.floor_eq_iff]
      norm_num
    rw [this]
    have h2 : ⌊(2 : ℝ)⌋ = 2 := by norm_num
    have h4 : ⌊(4 : ℝ)⌋ = 4 := by norm_num
    simp [layout, knotRow, floorTo, List.range_succ, h2, h4]
  show some ((sample_times 3.5 1 none).map fun t => cosInterpolate t
    ((layout (⌊(3.5 : ℝ) / 1.5⌋.toNat + 1)
      (([(0, -3), (2, Real.pi), (4, Real.pi)] : List (ℝ × ℝ)).map (knotRow 1))).map (·.1))
    ((layout (⌊(3.5 : ℝ) / 1.5⌋.toNat + 1)
      (([(0, -3), (2, Real.pi), (4, Real.pi)] : List (ℝ × ℝ)).map (knotRow 1))).map (·.2))) = _
  rw [hst, hl]
  have hs : ([0, 2, 4] : List ℝ).Pairwise (· < ·) := by norm_num
  have hk := (C33_cos [0, 2, 4] [-3, Real.pi, Real.pi] hs rfl).knot
  have k0 := hk 0 (by simp) (by simp)
  have k2 := hk 1 (by simp) (by simp)
  have k1 : cosInterpolate 1 [0, 2, 4] [-3, Real.pi, Real.pi] = (Real.pi - 3) / 2 := by
    rw [cosInterpolate_eq, interpWith_eq cos_interpolate _ [0, 2, 4] [-3, Real.pi, Real.pi] 1 hs rfl
      0 (by simp) (by norm_num) (by norm_num)]
    have : (2 : ℝ)⁻¹ * Real.pi = Real.pi / 2 := by ring
    simp [cos_interpolate, this]
    ring
  have k3 : cosInterpolate 3 [0, 2, 4] [-3, Real.pi, Real.pi] = Real.pi := by
    rw [cosInterpolate_eq, interpWith_eq cos_interpolate _ [0, 2, 4] [-3, Real.pi, Real.pi] 3 hs rfl
      1 (by simp) (by norm_num) (by norm_num)]
    simp [cos_interpolate]
  simp only [List.getElem_cons_zero, List.getElem_cons_succ] at k0 k2
  simp only [List.map_cons, List.map_nil, k0, k1, k2, k3]

/-- **C79, the part that does not hold.** Residual angles leave the interval of half size
`ang_max_deg`: they are centred after they are scaled. -/
theorem C79_draw_fails : ∃ (R : Rng Unit) (c c' : MotionConfig) (a : ℝ), R.Ok ∧ Drawable c 1 ∧
    Drawable { c' with T := c.T } 1 ∧ a = 7.5 ∧
    ∃ rows, (rr_imp_model R c' a).rcmg_draw_fn c () () 1 none = some rows ∧
      ∃ row ∈ rows, row.getD 1 0 < -(a * Real.pi / 180) := by
  have hd : Drawable upConfig 1 := by
    constructor <;> norm_num [upConfig]
    intro k hk
    cases hk
  have hpi := Real.pi_gt_three
  refine ⟨constRng 0.5 true, upConfig, upConfig, 7.5,
    constRng_ok 0.5 true (by norm_num) (by norm_num), hd, hd, rfl,
    hcat (column [-3, (Real.pi - 3) / 2, Real.pi, Real.pi])
      (column (centred 7.5 [-3, (Real.pi - 3) / 2, Real.pi, Real.pi])), ?_, ?_⟩
  · show _draw_rr_imp (constRng 0.5 true) upConfig 7.5 upConfig () () 1 none = _
    unfold _draw_rr_imp
    dsimp only
    have h1 := upConfig_drawn
    show (_draw_rxyz (constRng 0.5 true) upConfig () () 1 none >>= fun _ =>
      _draw_rxyz (constRng 0.5 true) { upConfig with T := upConfig.T } () () 1 none >>= _) = _
    rw [h1]
    rfl
  · simp only [centred, mean, column, hcat, List.map_cons, List.map_nil, List.zipWith_cons_cons,
      List.zipWith_nil_right, List.mem_cons, List.cons_append, List.nil_append]
    refine ⟨_, .inl rfl, ?_⟩
    have e : (7.5 : ℝ) * Real.pi / 180 / Real.pi = 1 / 24 := by
      field_simp
      norm_num
    have := Real.pi_le_four
    rw [e]
    simp
    linarith

example : Drawable upConfig 1 ∧ ∀ t, 0 ≤ upConfig.rom_halfsize.at t := by
  refine ⟨?_, fun t => by show 0 ≤ 2 * Real.pi; positivity⟩
  constructor <;> norm_num [upConfig]
  intro k hk
  cases hk

/-! ## what the joints do not have -/

section
open System

/-- C79: a system with such a joint has no coordinate vectors: the joint has no function to make
coordinates out of numbers, unless the user passes one. -/
theorem C79_no_coordinates {α π : Type} {E : JEnv α π} {s : System α π}
    (h : s.Consistent E.toEnv) (hk : ∀ t ∈ s.link_types, (E.joints t).isSome) {t : String}
    (ht : t ∈ s.link_types) {jm : JointModel α π} (hj : E.joints t = some jm)
    (hn : jm.coordinate_vector_to_q = none) (cj : String → Option (List α → List α))
    (hc : cj t = none) {q : List α} (hq : q.length = (s.link_types.map (wOf E.qw)).sum) :
    s.coordinate_vector_to_q E q cj = .error .notImplemented := by
  unfold System.coordinate_vector_to_q
  rw [scan_forward h.known h.types_len _ (by
      intro x hx
      simp only [ScanArg.and, argL, argQ, List.mem_append, List.mem_singleton, List.mem_cons,
        List.not_mem_nil, or_false] at hx
      rcases hx with rfl | rfl
      · exact h.types_len
      · exact hq)
    (rows_and (rows_argL _ _) (rows_argQ rfl q)) (by simp [h.types_len]),
    foldSpec_error none .notImplemented (by
      intro o ho e' he
      obtain ⟨jm', hj'⟩ := Option.isSome_iff_exists.1 (hk o.1 (List.of_mem_zip ho).1)
      simp only [to_q_link, get_joint_model, hj', ok_bind] at he
      split at he
      · cases he; rfl
      · cases he) (by
      obtain ⟨i, hi, rfl⟩ := List.mem_iff_getElem.1 ht
      have hi2 : i < (chunks (s.link_types.map (wOf E.qw)) q).length := by simpa using hi
      refine ⟨(s.link_types[i], _), List.mem_iff_getElem.2 ⟨i, by simpa using hi,
        List.getElem_zip⟩, ?_⟩
      simp only [to_q_link, get_joint_model, hj, ok_bind, hc, hn])]
  rfl

theorem foldSpec_some_error {O Y : Type} {g : O → Py Y} {m : IdxMap} {rows : List O} (y : Option Y)
    (h : ∃ o ∈ rows, ∃ e, g o = .error e) : ∃ e, foldSpec (fun _ _ o => g o) m y rows = .error e := by
  induction rows generalizing y with
  | nil => obtain ⟨o, ho, _⟩ := h; simp at ho
  | cons o os ih =>
    simp only [foldSpec]
    cases hg : g o with
    | error e' => exact ⟨e', rfl⟩
    | ok r =>
      obtain ⟨o', ho', e, he⟩ := h
      rcases List.mem_cons.1 ho' with rfl | ho'
      · rw [hg] at he; cases he
      · obtain ⟨e'', h''⟩ := ih (some r) ⟨o', ho', e, he⟩
        exact ⟨e'', by simp only [ok_bind, h'', error_bind]⟩

/-- C79: such a system also has no inverse kinematics. -/
theorem C79_no_inv_kin {π' : Type} {E : JEnv ℝ π'} {s : System ℝ π'} (h : s.Consistent E.toEnv)
    {t : String} (ht : t ∈ s.link_types) {jm : JointModel ℝ π'} (hj : E.joints t = some jm)
    (hn : jm.inv_kin = none) {st : State ℝ} (hx : st.x.length = s.num_links) :
    ∃ e, s.inverse_kinematics E st = .error e := by
  unfold System.inverse_kinematics
  dsimp only
  obtain ⟨i, hi, rfl⟩ := List.mem_iff_getElem.1 ht
  have h1 : s.linkRows.length = s.num_links := by
    rw [linkRows_length, h.links_len]
    rfl
  obtain ⟨e, he⟩ := foldSpec_some_error (g := inverse_kinematics_link E st.x)
    (m := theMap E.toEnv s.link_types) (rows := (List.range s.num_links).zip (st.x.zip
      (s.linkRows.zip (s.link_parents.zip s.link_types)))) none (by
      have hi' : i < s.num_links := by unfold System.num_links; rw [← h.types_len]; exact hi
      refine ⟨_, List.getElem_mem (n := i) (by
        have := h.types_len
        unfold System.num_links at *
        simp only [List.length_zip, List.length_range]
        omega), ?_⟩
      simp only [List.getElem_zip, inverse_kinematics_link]
      cases poseOrWorld st.x s.link_parents[i] with
      | error e => exact ⟨e, rfl⟩
      | ok x =>
        simp only [ok_bind]
        cases jcalc._limit_scope_of_joint_params s.link_types[i] s.linkRows[i].2 with
        | error e => exact ⟨e, rfl⟩
        | ok p =>
          simp only [ok_bind, get_joint_model, hj, hn]
          exact ⟨_, rfl⟩)
  rw [scan_forward h.known h.types_len _ (by
      intro x hx'
      simp only [ScanArg.and, argL, List.mem_append, List.mem_singleton, List.mem_cons,
        List.not_mem_nil, or_false] at hx'
      have := h.types_len
      unfold System.num_links at hx h1
      simp only [System.num_links] at hx'
      rcases hx' with rfl | rfl | rfl | rfl | rfl <;>
        simp only [List.length_range] <;> omega)
    (rows_and (rows_argL _ _) (rows_and (rows_argL _ _) (rows_and (rows_argL _ _)
      (rows_and (rows_argL _ _) (rows_argL _ _))))) (by
      have := h.types_len
      unfold System.num_links at *
      simp only [List.length_zip, List.length_range]
      omega), he]
  exact ⟨e, rfl⟩

/-- C79: and this is the case for all three joints. -/
theorem C79_no_inverse (R : Rng K) (c : MotionConfig) (a : ℝ) :
    ∀ jm ∈ [rr_model R, rr_imp_model R c a, rsaddle_model R],
      jm.coordinate_vector_to_q = none ∧ jm.inv_kin = none := by
  intro jm hjm
  simp only [List.mem_cons, List.not_mem_nil, or_false] at hjm
  rcases hjm with rfl | rfl | rfl <;> exact ⟨rfl, rfl⟩

/-! ## the hypotheses can be met -/

/-- a joint table with the three joints beside the free joint -/
noncomputable def axesEnv : JEnv ℝ AxisParams where
  qw t := if t = "rr" then some 1 else if t = "rr_imp" ∨ t = "rsaddle" then some 2 else
    if t = "free" then some 7 else none
  dw t := if t = "rr" then some 1 else if t = "rr_imp" ∨ t = "rsaddle" then some 2 else
    if t = "free" then some 6 else none
  pi := Real.pi
  ge x y := by classical exact decide (y ≤ x)
  unit4 z := by classical exact decide ((z.map fun x => x * x).sum = 1)
  nanLike x := x
  joints t := if t = "rr" then some (rr_model quarterRng).toJointModel else
    if t = "rr_imp" then some (rr_imp_model quarterRng {} 7.5).toJointModel else
    if t = "rsaddle" then some (rsaddle_model quarterRng).toJointModel else
    if t = "free" then some BuiltIn.free.model else none

/-- a free body with two links below it -/
noncomputable def axesSys : System ℝ AxisParams where
  link_parents := [-1, 0, 1]
  links := [kinRow 0, kinRow 1, kinRow 2]
  joint_params := [("default", [[], [], []]), ("rr", List.replicate 3
    (_draw_random_joint_axis quarterRng ())), ("rr_imp", List.replicate 3
    (_draw_rr_imp_axes quarterRng ()))]
  link_types := ["free", "rr", "rr_imp"]
  link_damping := List.replicate 9 1
  link_armature := List.replicate 9 1
  link_spring_stiffness := List.replicate 9 1
  link_spring_zeropoint := [1, 0, 0, 0, 0, 0, 0, 0, 0, 0]
  dt := 1 / 100
  geoms := []
  gravity := ⟨0, 0, 981 / 100⟩
  integration_method := "semi_implicit_euler"
  mass_mat_iters := 0
  link_names := ["a", "b", "c"]
  model_name := some "m"
  omc := [none, none, none]

theorem axes_widths : axesSys.link_types.map (wOf axesEnv.qw) = [7, 1, 2] ∧
    axesSys.link_types.map (wOf axesEnv.dw) = [6, 1, 2] := by
  refine ⟨?_, ?_⟩ <;> decide

theorem axes_consistent : axesSys.Consistent axesEnv.toEnv where
  types_len := rfl
  links_len := rfl
  omc_len := rfl
  names_len := rfl
  names_nodup := by show ["a", "b", "c"].Nodup; decide
  pos_ok := by
    intro l hl
    have : ∃ i, l = kinRow i := by
      simp [axesSys] at hl
      rcases hl with rfl | rfl | rfl <;> exact ⟨_, rfl⟩
    obtain ⟨i, rfl⟩ := this
    simp [axesEnv, kinRow]
  geoms_ok := by simp [axesSys]
  known := by
    intro t ht
    simp [axesSys] at ht
    rcases ht with rfl | rfl | rfl <;> constructor <;> decide
  damping_len := by rw [axes_widths.2]; simp [axesSys]
  armature_len := by rw [axes_widths.2]; simp [axesSys]
  stiffness_len := by rw [axes_widths.2]; simp [axesSys]
  zeropoint_len := by rw [axes_widths.1]; simp [axesSys]
  unit_zero := by
    intro i hi
    have : i < 3 := hi
    match i, this with
    | 0, _ =>
      intro _
      have h1 : wOf axesEnv.qw "free" = 7 := by decide
      have e : ownSlice axesEnv.qw axesSys.link_types axesSys.link_spring_zeropoint 0 =
          [1, 0, 0, 0, 0, 0, 0] := by simp [axesSys, ownSlice, h1]
      rw [e]
      simp [axesEnv]
    | 1, _ =>
      intro h
      have h : joint_type_is_free_or_cor_or_spherical "rr" = true := h
      exact absurd h (by decide)
    | 2, _ =>
      intro h
      have h : joint_type_is_free_or_cor_or_spherical "rr_imp" = true := h
      exact absurd h (by decide)

theorem quarterRng_drawn (key : Unit) : DrawnQuat quarterRng key :=
  ⟨0, by decide, by norm_num [quarterRng]⟩

/-- the system meets what is assumed of it -/
example : axesSys.coordinate_vector_to_q axesEnv (List.replicate 10 0) = .error .notImplemented :=
  C79_no_coordinates axes_consistent (by
      intro t ht
      simp [axesSys] at ht
      rcases ht with rfl | rfl | rfl <;> decide)
    (t := "rr") (by decide) rfl rfl (fun _ => none) rfl
    (by rw [axes_widths.1]; rfl)

example : ∃ e, axesSys.inverse_kinematics axesEnv
    { q := [], qd := [], x := List.replicate 3 .zero } = .error e :=
  C79_no_inv_kin axes_consistent (t := "rr") (by decide) rfl rfl rfl

/-- the drawn axes meet what is assumed of them; the two axes of an rsaddle joint are
different -/
example : ((_draw_random_joint_axis quarterRng ()).axis "joint_axes").dot
      ((_draw_random_joint_axis quarterRng ()).axis "joint_axes") = 1 ∧
    ((_draw_rr_imp_axes quarterRng ()).axis "joint_axes").dot
      ((_draw_rr_imp_axes quarterRng ()).axis "residual") = 0 ∧
    (_draw_rsaddle_axes quarterRng ()).axis "joint_axes" 0 ≠
      (_draw_rsaddle_axes quarterRng ()).axis "joint_axes" 1 :=
  ⟨C79_rr_axis _ _ (quarterRng_drawn _), (C79_rr_imp_axes _ _ (quarterRng_drawn _)).2.2, by
    rw [quarterRng_axes.1, quarterRng_axes.2]
    norm_num⟩

/-- an rr joint that is turned with one radian per second -/
example : HasTwist (fun s => (rr_model quarterRng).transform [s]
      (_draw_random_joint_axis quarterRng ()))
    ((rr_model quarterRng).declared (_draw_random_joint_axis quarterRng ()) [1]) 5 :=
  C79_rr _ (C79_rr_axis _ _ (quarterRng_drawn _)) rfl (by simpa using hasDerivAt_id' _)

/-- registering after the start of the program -/
example : ∃ r', register_rr_joint quarterRng
    (initial (fun b => b.draw quarterRng) [] :
      Registry ℝ AxisParams MotionConfig (DrawFn Unit) Unit Unit) = (.ok (), r') ∧
    r'.Knows "rr" 1 1 (rr_model quarterRng) := by
  obtain ⟨r', h1, h2, -⟩ := (C79_register quarterRng (C61_initial (fun b => b.draw quarterRng) [] :
    (initial (fun b => b.draw quarterRng) [] :
      Registry ℝ AxisParams MotionConfig (DrawFn Unit) Unit Unit).Consistent)).1
  exact ⟨r', h1, h2⟩

open io in
/-- parameters of the three links -/
example : ∃ jp rows, _init_joint_params
      { init := fun t => if t = "rr" then some (some (_draw_random_joint_axis quarterRng)) else
          if t = "rr_imp" then some (some (_draw_rr_imp_axes quarterRng)) else some none
        default := []
        split := fun _ n => List.replicate n () } () axesSys =
        .ok { axesSys with joint_params := jp } ∧
      jp.lookup "rr" = some rows ∧ rows.length = 3 ∧
      ∀ p ∈ rows, (p.axis "joint_axes").dot (p.axis "joint_axes") = 1 :=
  C79_params quarterRng ⟨by
      intro t ht
      simp [axesSys] at ht
      rcases ht with rfl | rfl | rfl <;> decide, fun k n => by simp⟩
    (by simp) (by decide) quarterRng_drawn ()

end

end RingLib
