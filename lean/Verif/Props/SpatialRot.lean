import Mathlib.Analysis.SpecialFunctions.Trigonometric.InverseDeriv
import Mathlib.Analysis.SpecialFunctions.Trigonometric.Deriv
import Verif.Model.SpatialRot
import Verif.Props.Trig
import Verif.Props.Algebra

/-!
# Rotations about the coordinate axes, small motions and inverse trigonometric functions (C87)
-/

namespace RingLib
open Real maths spatial

/-! ## Specification -/

/-- a vector as an array of shape `(6, 1)` -/
def Vec6.column (v : Vec6 ℝ) : List (List ℝ) :=
  [[v.fst.x], [v.fst.y], [v.fst.z], [v.snd.x], [v.snd.y], [v.snd.z]]

/-- The rotation matrix of the library for a rotation about a coordinate axis. -/
noncomputable def axisMatrix : Axis → ℝ → Mat3 ℝ
  | .x => rx
  | .y => ry
  | .z => rz

/-- The Plücker transform of the library for a rotation about a coordinate axis. -/
noncomputable def axisPlucker : Axis → ℝ → Mat6 ℝ
  | .x => rotx
  | .y => roty
  | .z => rotz

/-! ## Rotations -/

/-- C87: `rx`, `ry`, `rz` are rotations about their axes; angles add, and the inverse has the negative
angle. -/
theorem C87_group (ax : Axis) (a b : ℝ) :
    (axisMatrix ax a).IsRotation ∧ (axisMatrix ax a).mulVec ax.unit = ax.unit ∧
    (axisMatrix ax a).mul (axisMatrix ax b) = axisMatrix ax (a + b) ∧
    axisMatrix ax 0 = .eye ∧ axisMatrix ax (-a) = (axisMatrix ax a).transpose := by
  have h := sin_sq_add_cos_sq a
  refine ⟨⟨?_, ?_, ?_⟩, ?_, ?_, ?_, ?_⟩ <;> cases ax <;>
    simp [axisMatrix, rx, ry, rz, Mat3.mul, Mat3.transpose, Mat3.eye, Mat3.det, Mat3.mulVec, Axis.unit,
      sin_add, cos_add] <;> grind

/-- angles of a quarter turn and of a half turn make three quarters of a turn -/
example : (rx (π / 2)).mul (rx π) = ⟨1, 0, 0, 0, 0, -1, 0, 1, 0⟩ := by
  rw [show (rx (π / 2)).mul (rx π) = rx (π / 2 + π) from (C87_group .x _ _).2.2.1]
  simp [rx, cos_add, sin_add]

theorem rot_coord_unit (ax : Axis) (θ : ℝ) : (quat_rot_axis ax.unit θ).IsUnit := by
  rw [quat_rot_axis_eq, safe_normalize_of_unit (axis_unit ax)]
  exact rotQuat_unit (axis_unit ax) _

/-- C87: `rx`, `ry`, `rz` are the matrices of the quaternions `quat_rot_axis`, with the same sign of the
angle. -/
theorem C87_quat (ax : Axis) (θ : ℝ) :
    quat_to_3x3 (quat_rot_axis ax.unit θ) = axisMatrix ax θ := by
  have hu := rot_coord_unit ax θ
  rw [to3x3_of_unit hu, quat_rot_axis_eq, safe_normalize_of_unit (axis_unit ax)]
  have hc : cos θ = cos (θ / 2) ^ 2 - sin (θ / 2) ^ 2 := by
    rw [show θ = 2 * (θ / 2) by ring, cos_two_mul']; ring_nf
  have hs : sin θ = 2 * sin (θ / 2) * cos (θ / 2) := by
    rw [show θ = 2 * (θ / 2) by ring, sin_two_mul]; ring_nf
  have h1 := sin_sq_add_cos_sq (θ / 2)
  cases ax <;>
    simp [axisMatrix, rx, ry, rz, Axis.unit, rotQuat, neg_div, hc, hs] <;> grind

/-- C87: `rotx`, `roty`, `rotz` are the matrices of the transforms with that rotation and no translation. -/
theorem C87_plucker (ax : Axis) (θ : ℝ) :
    (Transform.mk 0 (quat_rot_axis ax.unit θ)).as_matrix = axisPlucker ax θ := by
  have h := C87_quat ax θ
  simp only [Transform.as_matrix, h]
  cases ax <;>
    simp [axisPlucker, axisMatrix, rotx, roty, rotz, _rotxyz, xlt, quadrants, Mat6.mul, cross, rx, ry, rz,
      Mat3.mul, Mat3.eye, Mat3.zero_def, Mat3.add_def, Mat3.neg_def]

/-- C87: the matrix of the Euler angles `zyx` is the product of the three rotations. -/
theorem C87_euler (a : Vec3 ℝ) :
    quat_to_3x3 (quat_euler a) = (rx a.z).mul ((ry a.y).mul (rz a.x)) := by
  have hx := rot_coord_unit .x a.z
  have hy := rot_coord_unit .y a.y
  have hz := rot_coord_unit .z a.x
  have := (C12_unit_closed hy hz).1
  simp only [quat_euler, if_true]
  rw [(C13_matrix_mul hx this).1, (C13_matrix_mul hy hz).1, C87_quat, C87_quat, C87_quat]
  rfl

/-! ## Small motions -/

/-- the matrix of a unit quaternion, with all entries quadratic -/
theorem to3x3_quadratic {q : Quat ℝ} (h : q.IsUnit) : quat_to_3x3 q =
    ⟨q.w*q.w + q.x*q.x - q.y*q.y - q.z*q.z, 2*(q.x*q.y - q.w*q.z), 2*(q.x*q.z + q.w*q.y),
     2*(q.x*q.y + q.w*q.z), q.w*q.w - q.x*q.x + q.y*q.y - q.z*q.z, 2*(q.y*q.z - q.w*q.x),
     2*(q.x*q.z - q.w*q.y), 2*(q.y*q.z + q.w*q.x), q.w*q.w - q.x*q.x - q.y*q.y + q.z*q.z⟩ := by
  have h1 : q.w*q.w + q.x*q.x + q.y*q.y + q.z*q.z = 1 := h
  rw [to3x3_of_unit h]
  ext <;> dsimp only <;> linarith

/-- C87: what `XtoV` computes for the transform with the position `r` and the rotation `q`: twice the product
of the scalar part and the vector part of `q`, with the sign of the frame convention, and
`(tr E - Eᵀ) r / 2`. -/
theorem C87_XtoV_value {t : Transform ℝ} (h : t.rot.IsUnit) :
    XtoV t.as_matrix = Vec6.column
      ⟨.smul (-2 * t.rot.w) t.rot.vec,
       .smul (1 / 2) (.smul (4 * (t.rot.w * t.rot.w) - 1) t.pos - rotate t.pos (quat_inv t.rot))⟩ := by
  have h1 : t.rot.w*t.rot.w + t.rot.x*t.rot.x + t.rot.y*t.rot.y + t.rot.z*t.rot.z = 1 := h
  have h2 : (quat_inv t.rot).normSq = 1 := (normSq_inv _).trans h
  rw [← to3x3_mulVec h2, to3x3_of_unit h2]
  obtain ⟨⟨r0, r1, r2⟩, ⟨w, x, y, z⟩⟩ := t
  simp only at h1
  simp only [Transform.as_matrix]
  rw [to3x3_of_unit h]
  simp [XtoV, Vec6.column, quadrants, xlt, Mat6.mul, cross, Mat3.mul, Mat3.eye, Mat3.zero_def, Mat3.add_def,
    Mat3.neg_def, Mat3.mulVec, Quat.vec, quat_inv]
  norm_num
  refine ⟨by ring, by ring, by ring, ?_, ?_, ?_⟩
  · linear_combination (-4 * r0) * h1
  · linear_combination (-4 * r1) * h1
  · linear_combination (-4 * r2) * h1

/-- C87: the vector of `XtoV` is left unchanged by the transform it was computed from: it is a screw along the
axis of the transform. -/
theorem C87_XtoV_invariant {t : Transform ℝ} (h : t.rot.IsUnit) :
    ∃ v : Vec6 ℝ, XtoV t.as_matrix = v.column ∧ t.as_matrix.mulVec v = v := by
  refine ⟨_, C87_XtoV_value h, ?_⟩
  have h1 : t.rot.w*t.rot.w + t.rot.x*t.rot.x + t.rot.y*t.rot.y + t.rot.z*t.rot.z = 1 := h
  have h2 : (quat_inv t.rot).normSq = 1 := (normSq_inv _).trans h
  have h3 : 4 * (t.rot.w * t.rot.w) - 1 =
      3 * (t.rot.w*t.rot.w) - t.rot.x*t.rot.x - t.rot.y*t.rot.y - t.rot.z*t.rot.z := by linarith
  rw [← to3x3_mulVec h2, to3x3_quadratic h2, h3]
  obtain ⟨⟨r0, r1, r2⟩, ⟨w, x, y, z⟩⟩ := t
  simp only at h1
  simp only [Transform.as_matrix]
  rw [to3x3_quadratic h]
  ext <;> simp [Mat6.mulVec, quadrants, xlt, Mat6.mul, cross, Mat3.mul, Mat3.eye, Mat3.zero_def, Mat3.add_def,
    Mat3.neg_def, Mat3.mulVec, Quat.vec, quat_inv]
  · linear_combination (-2 * w * x) * h1
  · linear_combination (-2 * w * y) * h1
  · linear_combination (-2 * w * z) * h1
  · linear_combination (((3*w*w - x*x - y*y - z*z) * r0 - ((w*w + x*x - y*y - z*z) * r0 +
      2*(x*y + w*z) * r1 + 2*(x*z - w*y) * r2)) / 2) * h1
  · linear_combination (((3*w*w - x*x - y*y - z*z) * r1 - (2*(x*y - w*z) * r0 +
      (w*w - x*x + y*y - z*z) * r1 + 2*(y*z + w*x) * r2)) / 2) * h1
  · linear_combination (((3*w*w - x*x - y*y - z*z) * r2 - (2*(x*z + w*y) * r0 +
      2*(y*z - w*x) * r1 + (w*w - x*x - y*y + z*z) * r2)) / 2) * h1

theorem hasDerivAt_id_mul {g : ℝ → ℝ} (hg : Continuous g) : HasDerivAt (fun s => s * g s) (g 0) 0 := by
  rw [hasDerivAt_iff_tendsto_slope]
  refine Filter.Tendsto.congr' ?_ (hg.continuousAt.tendsto.mono_left nhdsWithin_le_nhds)
  filter_upwards [self_mem_nhdsWithin] with s hs
  simp only [slope_def_field, zero_mul, sub_zero]
  exact (mul_div_cancel_left₀ _ hs).symm

/-- The transform that is reached after the time `s` with angular velocity `θ n` and velocity `r`, to first
order. -/
noncomputable def motionAt (n : Vec3 ℝ) (θ : ℝ) (r : Vec3 ℝ) (s : ℝ) : Transform ℝ :=
  ⟨.smul s r, quat_rot_axis n (s * θ)⟩

/-- C87: `XtoV` is the velocity of a small motion: to first order in the time the vector is the time multiplied by
the angular velocity and the velocity. -/
theorem C87_XtoV_velocity {n : Vec3 ℝ} (hn : n.x ^ 2 + n.y ^ 2 + n.z ^ 2 = 1) (θ : ℝ) (r : Vec3 ℝ) :
    ∃ v : ℝ → Vec6 ℝ, (∀ s, XtoV (motionAt n θ r s).as_matrix = (v s).column) ∧
      HasDerivAt (fun s => (v s).fst.x) (θ * n.x) 0 ∧ HasDerivAt (fun s => (v s).fst.y) (θ * n.y) 0 ∧
      HasDerivAt (fun s => (v s).fst.z) (θ * n.z) 0 ∧ HasDerivAt (fun s => (v s).snd.x) r.x 0 ∧
      HasDerivAt (fun s => (v s).snd.y) r.y 0 ∧ HasDerivAt (fun s => (v s).snd.z) r.z 0 := by
  have hq : ∀ a, quat_rot_axis n a = rotQuat n (-a) := fun a => by
    rw [quat_rot_axis_eq, safe_normalize_of_unit hn]
  have hu : ∀ s, (motionAt n θ r s).rot.IsUnit := fun s => by
    simp only [motionAt, hq]
    exact rotQuat_unit hn _
  refine ⟨_, fun s => C87_XtoV_value (hu s), ?_⟩
  have hlin : ∀ a : ℝ, HasDerivAt (fun s : ℝ => sin (s * θ) * a) (θ * a) 0 := fun a => by
    have h0 : HasDerivAt (fun s : ℝ => s * θ) θ 0 := by
      simpa using (hasDerivAt_id (0 : ℝ)).mul_const θ
    simpa using h0.sin.mul_const a
  have hang : ∀ s : ℝ, -2 * cos (-(s * θ) / 2) * sin (-(s * θ) / 2) = sin (s * θ) := fun s => by
    rw [neg_div, cos_neg, sin_neg, show s * θ = 2 * (s * θ / 2) by ring, sin_two_mul]
    ring_nf
  have hw : ∀ s : ℝ, 4 * (cos (-(s * θ) / 2) * cos (-(s * θ) / 2)) - 1 = 2 * cos (s * θ) + 1 := fun s => by
    rw [neg_div, cos_neg, show s * θ = 2 * (s * θ / 2) by ring, cos_two_mul]
    ring_nf
  have hrot : ∀ s, rotate (.smul s r) (rotQuat n (s * θ)) = .smul s (rotate r (rotQuat n (s * θ))) :=
    fun s => rotate_smul _ _ _
  simp only [motionAt, hq, rotQuat_inv, neg_neg, hrot]
  refine ⟨?_, ?_, ?_, ?_, ?_, ?_⟩
  · convert hlin n.x using 2 with s
    rw [← hang]; simp only [Vec3.smul, Quat.vec, rotQuat]; ring
  · convert hlin n.y using 2 with s
    rw [← hang]; simp only [Vec3.smul, Quat.vec, rotQuat]; ring
  · convert hlin n.z using 2 with s
    rw [← hang]; simp only [Vec3.smul, Quat.vec, rotQuat]; ring
  · convert hasDerivAt_id_mul (g := fun s => ((2 * cos (s * θ) + 1) * r.x -
      (rotate r (rotQuat n (s * θ))).x) / 2) ?_ using 1
    · funext s; simp only [Vec3.smul, Vec3.sub_x, rotQuat]; rw [hw]; ring
    · simp [rotQuat, rotate_x]; ring
    · simp only [rotate_x, rotQuat]; fun_prop
  · convert hasDerivAt_id_mul (g := fun s => ((2 * cos (s * θ) + 1) * r.y -
      (rotate r (rotQuat n (s * θ))).y) / 2) ?_ using 1
    · funext s; simp only [Vec3.smul, Vec3.sub_y, rotQuat]; rw [hw]; ring
    · simp [rotQuat, rotate_y]; ring
    · simp only [rotate_y, rotQuat]; fun_prop
  · convert hasDerivAt_id_mul (g := fun s => ((2 * cos (s * θ) + 1) * r.z -
      (rotate r (rotQuat n (s * θ))).z) / 2) ?_ using 1
    · funext s; simp only [Vec3.smul, Vec3.sub_z, rotQuat]; rw [hw]; ring
    · simp [rotQuat, rotate_z]; ring
    · simp only [rotate_z, rotQuat]; fun_prop

/-- an axis that is not one of the coordinate axes -/
example : (3 / 5 : ℝ) ^ 2 + (4 / 5) ^ 2 + 0 ^ 2 = 1 := by norm_num

/-- C87: for a half turn the angular part vanishes, whatever the axis: `XtoV` is not the velocity of a large
motion. -/
theorem C87_XtoV_half_turn {n : Vec3 ℝ} (hn : n.x ^ 2 + n.y ^ 2 + n.z ^ 2 = 1) :
    XtoV (Transform.mk 0 (quat_rot_axis n π)).as_matrix = [[0], [0], [0], [0], [0], [0]] := by
  have hq : quat_rot_axis n π = rotQuat n (-π) := by
    rw [quat_rot_axis_eq, safe_normalize_of_unit hn]
  rw [C87_XtoV_value (by rw [hq]; exact rotQuat_unit hn _), hq]
  have : cos (-π / 2) = 0 := by rw [neg_div, cos_neg, cos_pi_div_two]
  simp [Vec6.column, rotQuat, this, rotate_x, rotate_y, rotate_z]

/-- C87: for a translation and for a rotation about a coordinate axis. -/
theorem C87_XtoV_axis (r : Vec3 ℝ) (θ : ℝ) :
    XtoV (xlt r) = (Vec6.mk 0 r).column ∧
    ∀ ax, XtoV (axisPlucker ax θ) = (Vec6.mk (.smul (sin θ) ax.unit) 0).column := by
  constructor
  · simp [XtoV, Vec6.column, quadrants, xlt, cross, Mat3.eye, Mat3.neg_def]
    norm_num
    refine ⟨by ring, by ring, by ring⟩
  · intro ax
    cases ax <;>
      simp [XtoV, Vec6.column, axisPlucker, rotx, roty, rotz, _rotxyz, quadrants, rx, ry, rz, Axis.unit,
        Mat3.zero_def] <;> ring

/-! ## Inverse trigonometric functions -/

theorem clip1_bounds (x : ℝ) : -1 + 1e-7 ≤ clip1 x ∧ clip1 x ≤ 1 - 1e-7 := by
  unfold clip1
  refine ⟨le_max_left _ _, max_le (by norm_num) (min_le_right _ _)⟩

theorem clip1_of {x : ℝ} (h : |x| ≤ 1 - 1e-7) : clip1 x = x := by
  obtain ⟨h1, h2⟩ := abs_le.1 h
  unfold clip1
  rw [min_eq_left h2, max_eq_right (by linarith)]

theorem clip1_radicand (x : ℝ) : (1 / 3000 : ℝ) ^ 2 ≤ 1 - clip1 x ^ 2 := by
  obtain ⟨h1, h2⟩ := clip1_bounds x
  nlinarith

theorem tangent_bound (x d : ℝ) : |d / √(1 - clip1 x ^ 2)| ≤ 3000 * |d| := by
  have h : (1 / 3000 : ℝ) ≤ √(1 - clip1 x ^ 2) := by
    rw [← Real.sqrt_sq (show (0 : ℝ) ≤ 1 / 3000 by norm_num)]
    exact Real.sqrt_le_sqrt (clip1_radicand x)
  rw [abs_div, abs_of_nonneg (Real.sqrt_nonneg _), div_le_iff₀ (by linarith)]
  nlinarith [abs_nonneg d]

/-- C87: `safe_arccos` when it is differentiated: the value is that of the function, the tangent is that of the
derivative away from the ends, and it is bounded everywhere. -/
theorem C87_arccos (x d : ℝ) :
    (_safe_arccos_jvp x d).1 = safe_arccos x ∧
    (|x| ≤ 1 - 1e-7 → ∀ f' : ℝ, HasDerivAt safe_arccos f' x → (_safe_arccos_jvp x d).2 = f' * d) ∧
    |(_safe_arccos_jvp x d).2| ≤ 3000 * |d| := by
  refine ⟨rfl, fun h f' hf => ?_, ?_⟩
  · obtain ⟨h1, h2⟩ := abs_le.1 h
    have h3 := Real.hasDerivAt_arccos (x := x) (by linarith) (by linarith)
    rw [hf.unique h3]
    simp only [_safe_arccos_jvp, clip1_of h]
    ring
  · have := tangent_bound x (-d)
    rwa [abs_neg] at this

/-- C87: the tangent of `safe_arcsin` is that of the derivative away from the ends, and it is bounded
everywhere. -/
theorem C87_arcsin_partial (x d : ℝ) :
    (|x| ≤ 1 - 1e-7 → ∀ f' : ℝ, HasDerivAt safe_arcsin f' x → (_safe_arcsin_jvp x d).2 = f' * d) ∧
    |(_safe_arcsin_jvp x d).2| ≤ 3000 * |d| := by
  refine ⟨fun h f' hf => ?_, tangent_bound x d⟩
  obtain ⟨h1, h2⟩ := abs_le.1 h
  have h3 := Real.hasDerivAt_arcsin (x := x) (by linarith) (by linarith)
  rw [hf.unique h3]
  simp only [_safe_arcsin_jvp, clip1_of h]
  ring

/-- both functions have a derivative where the theorems speak of it -/
example : HasDerivAt safe_arcsin (1 / √(1 - (1 / 2) ^ 2)) (1 / 2) ∧
    HasDerivAt safe_arccos (-(1 / √(1 - (1 / 2) ^ 2))) (1 / 2) ∧ |(1 / 2 : ℝ)| ≤ 1 - 1e-7 :=
  ⟨Real.hasDerivAt_arcsin (by norm_num) (by norm_num), Real.hasDerivAt_arccos (by norm_num) (by norm_num),
    by rw [abs_of_pos] <;> norm_num⟩

/-- C87: the value that `safe_arcsin` returns when it is differentiated is the arc cosine; among all arguments of
the function it is the arc sine for one only. -/
theorem C87_arcsin_fails (d : ℝ) :
    (∀ x, (_safe_arcsin_jvp x d).1 = π / 2 - safe_arcsin x) ∧
    (∀ x, -1 ≤ x → x ≤ 1 → ((_safe_arcsin_jvp x d).1 = safe_arcsin x ↔ x = √2 / 2)) := by
  have h1 : ∀ x, (_safe_arcsin_jvp x d).1 = π / 2 - safe_arcsin x := fun x =>
    Real.arccos_eq_pi_div_two_sub_arcsin x
  refine ⟨h1, fun x h2 h3 => ?_⟩
  rw [h1]
  constructor
  · intro h
    have : arcsin x = π / 4 := by unfold safe_arcsin at h; linarith
    rw [← Real.sin_arcsin h2 h3, this, sin_pi_div_four]
  · rintro rfl
    have : arcsin (√2 / 2) = π / 4 := by
      rw [← sin_pi_div_four]
      exact Real.arcsin_sin (by linarith [pi_pos]) (by linarith [pi_pos])
    unfold safe_arcsin
    rw [this]
    ring

/-- C87: so the second angle of `quat_to_euler` has another value when the function is differentiated: for the
identity it is a quarter turn instead of zero. -/
theorem C87_to_euler_fails (q : Quat ℝ) (d : ℝ) :
    (quat_to_euler_y_jvp q d).1 = π / 2 - (quat_to_euler q).y ∧
    (quat_to_euler (⟨1, 0, 0, 0⟩ : Quat ℝ)).y = 0 ∧
    (quat_to_euler_y_jvp ⟨1, 0, 0, 0⟩ d).1 = π / 2 := by
  have h : ∀ q, (quat_to_euler_y_jvp q d).1 = π / 2 - (quat_to_euler q).y := fun q =>
    (C87_arcsin_fails d).1 _
  have h0 : (quat_to_euler (⟨1, 0, 0, 0⟩ : Quat ℝ)).y = 0 := by
    simp [quat_to_euler, quat_inv]
  refine ⟨h q, h0, ?_⟩
  rw [h, h0, sub_zero]

/-! ## Arrays of identities -/

/-- C87: `unit_quats_like` gives one quaternion for each row, each of which leaves all vectors unchanged; an array
whose last axis is not four raises. -/
theorem C87_unit_quats (array : List (List ℝ)) (k : Nat) :
    (k = 4 → ∃ qs, unit_quats_like array k = some qs ∧ qs.length = array.length ∧
      ∀ q ∈ qs, q.IsUnit ∧ ∀ v, rotate v q = v) ∧
    (k ≠ 4 → unit_quats_like array k = none) := by
  refine ⟨fun h => ⟨_, by simp [unit_quats_like, h]; rfl, by simp, ?_⟩, fun h => by
    simp [unit_quats_like, h]⟩
  intro q hq
  obtain rfl := (List.mem_replicate.1 hq).2
  refine ⟨by simp [unitQuat, Quat.IsUnit], fun v => ?_⟩
  ext <;> simp [unitQuat, rotate_x, rotate_y, rotate_z]

/-- two rows, of which the second is not a rotation -/
example : unit_quats_like [[0.6, 0.8, 0, 0], [0, 0, 0, 0]] 4 =
    some [⟨1, 0, 0, 0⟩, (⟨1, 0, 0, 0⟩ : Quat ℝ)] := rfl

end RingLib
