import Verif.Lemmas.Trig
import Verif.Props.Quat
import Mathlib.Analysis.Real.Pi.Bounds

/-!
# C13 (matrix to quaternion), C14 (angles), C15 (axis-angle), C16 (projection), C17 (Euler angles)
-/

namespace RingLib
open maths Real

/-! ## C13, second part -/

/-- C13: reading a quaternion back from its rotation matrix gives the quaternion itself or its
negative (the one with positive scalar part), unless the scalar part vanishes. -/
theorem C13_from_to {q : Quat ℝ} (h : q.IsUnit) (hw : q.w ≠ 0) :
    quat_from_3x3 (quat_to_3x3 q) = if 0 < q.w then q else -q := by
  have h1 : q.w*q.w + q.x*q.x + q.y*q.y + q.z*q.z = 1 := h
  rw [to3x3_of_unit h]
  have hs : √(1 + (1 - 2*(q.y*q.y + q.z*q.z)) + (1 - 2*(q.x*q.x + q.z*q.z)) +
      (1 - 2*(q.x*q.x + q.y*q.y))) / 2 = |q.w| := by
    rw [show 1 + (1 - 2*(q.y*q.y + q.z*q.z)) + (1 - 2*(q.x*q.x + q.z*q.z)) +
      (1 - 2*(q.x*q.x + q.y*q.y)) = (2 * q.w) ^ 2 by linear_combination (-4) * h1, sqrt_sq_eq_abs,
      abs_mul]
    norm_num
  unfold quat_from_3x3
  simp only [hs]
  split
  · rename_i hpos
    rw [abs_of_pos hpos]
    ext <;> simp only <;> field_simp <;> ring
  · rename_i hneg
    have hlt : q.w < 0 := lt_of_le_of_ne (not_lt.1 hneg) hw
    rw [abs_of_neg hlt]
    ext <;> simp only [Quat.neg_w, Quat.neg_x, Quat.neg_y, Quat.neg_z] <;> field_simp <;> ring

/-- C13: at vanishing scalar part (rotation by 180 degrees) `quat_from_3x3` divides by zero; no
quaternion is recovered (in the model `x / 0 = 0`, in floating point the entries are NaN). -/
theorem C13_from_to_half_turn {q : Quat ℝ} (h : q.IsUnit) (hw : q.w = 0) :
    (quat_from_3x3 (quat_to_3x3 q)).w = 0 ∧
      quat_from_3x3 (quat_to_3x3 q) ≠ q ∧ quat_from_3x3 (quat_to_3x3 q) ≠ -q := by
  have h1 : q.w*q.w + q.x*q.x + q.y*q.y + q.z*q.z = 1 := h
  have hs : (quat_from_3x3 (quat_to_3x3 q)) = ⟨0, 0, 0, 0⟩ := by
    rw [to3x3_of_unit h]
    have hs : √(1 + (1 - 2*(q.y*q.y + q.z*q.z)) + (1 - 2*(q.x*q.x + q.z*q.z)) +
        (1 - 2*(q.x*q.x + q.y*q.y))) / 2 = 0 := by
      rw [show 1 + (1 - 2*(q.y*q.y + q.z*q.z)) + (1 - 2*(q.x*q.x + q.z*q.z)) +
        (1 - 2*(q.x*q.x + q.y*q.y)) = (2 * q.w) ^ 2 by linear_combination (-4) * h1, hw]
      simp
    unfold quat_from_3x3
    simp only [hs]
    simp
  rw [hs]
  refine ⟨rfl, ?_, ?_⟩ <;> intro hc
  · rw [← hc] at h1; norm_num at h1
  · have : q = ⟨0, 0, 0, 0⟩ := by
      have hw := congrArg Quat.w hc
      have hx := congrArg Quat.x hc
      have hy := congrArg Quat.y hc
      have hz := congrArg Quat.z hc
      simp at hw hx hy hz
      ext <;> simp [hx, hy, hz, *]
    rw [this] at h1; norm_num at h1

/-! ## C14 -/

/-- C14: `wrap_to_pi` is the representative in `[-π, π)` modulo `2π`. -/
theorem C14_wrap (φ : ℝ) :
    (-π ≤ wrap_to_pi φ ∧ wrap_to_pi φ < π) ∧ (∃ k : ℤ, wrap_to_pi φ = φ + k * (2 * π)) ∧
    (-π ≤ φ → φ < π → wrap_to_pi φ = φ) ∧ (∀ k : ℤ, wrap_to_pi (φ + k * (2 * π)) = wrap_to_pi φ) :=
  ⟨wrap_mem φ, wrap_congr φ, wrap_id, wrap_add φ⟩

/-- C14: hence it is idempotent, and equal values mean equal angles. -/
theorem C14_wrap_eq_iff (φ ψ : ℝ) :
    wrap_to_pi φ = wrap_to_pi ψ ↔ ∃ k : ℤ, φ = ψ + k * (2 * π) := by
  constructor
  · intro h
    obtain ⟨k, hk⟩ := wrap_congr φ
    obtain ⟨m, hm⟩ := wrap_congr ψ
    exact ⟨m - k, by push_cast; linear_combination h - hk + hm⟩
  · rintro ⟨k, rfl⟩
    exact wrap_add ψ k

/-- Specification: the angle of the rotation that a unit quaternion describes, in `[0, π]`. -/
noncomputable def rotationAngle (p : Quat ℝ) : ℝ := 2 * arccos |p.w|

/-- the tolerance of `jnp.isclose`: rotations whose imaginary part is componentwise at most `1e-8`
count as no rotation -/
def Negligible (p : Quat ℝ) : Prop := |p.x| ≤ 1e-8 ∧ |p.y| ≤ 1e-8 ∧ |p.z| ≤ 1e-8

theorem abs_quat_angle {p : Quat ℝ} (h : p.IsUnit) (hn : ¬ Negligible p) :
    |quat_angle p| = rotationAngle p := by
  have h1 : p.w*p.w + p.x*p.x + p.y*p.y + p.z*p.z = 1 := h
  have hna : ¬ allclose0 p.vec := hn
  have hp := pi_pos
  have hsn := norm3_pos hna
  have hsq := norm3_sq p.vec
  simp only [Quat.vec_x, Quat.vec_y, Quat.vec_z] at hsq
  have hw1 : |p.w| ≤ 1 := by rw [abs_le]; constructor <;> nlinarith [sq_nonneg p.x, sq_nonneg p.y, sq_nonneg p.z]
  have hn1 : norm3 p.vec = √(1 - p.w ^ 2) := by
    rw [← sqrt_sq hsn.le, hsq]; congr 1; linear_combination h1
  have ha : atan2 (safe_norm p.vec) p.w = arccos p.w := by
    rw [safe_norm_of hna]
    apply atan2_unit
    · linarith [arccos_nonneg p.w]
    · exact arccos_le_pi p.w
    · rw [sin_arccos, hn1]
    · rw [cos_arccos (abs_le.1 hw1).1 (abs_le.1 hw1).2]
  unfold quat_angle rotationAngle
  rw [ha]
  have h0 := arccos_nonneg p.w
  have hpi := arccos_le_pi p.w
  by_cases hpos : 0 < p.w
  · have hlt : arccos p.w < π / 2 := by
      rw [show π / 2 = arccos 0 by rw [arccos_zero]]
      exact strictAntiOn_arccos ⟨by norm_num, by norm_num⟩ ⟨(abs_le.1 hw1).1, (abs_le.1 hw1).2⟩ hpos
    rw [wrap_id (by linarith) (by linarith), abs_of_pos hpos, abs_of_nonneg (by linarith)]
  · have hle : π / 2 ≤ arccos p.w := by
      rw [show π / 2 = arccos 0 by rw [arccos_zero]]
      exact antitone_arccos (not_lt.1 hpos)
    have : wrap_to_pi (2 * arccos p.w) = 2 * arccos p.w - 2 * π := by
      by_cases hpi' : arccos p.w = π
      · exfalso
        have : p.w = -1 := by
          have := cos_arccos (abs_le.1 hw1).1 (abs_le.1 hw1).2
          rw [hpi', cos_pi] at this
          exact this.symm
        rw [hn1, this] at hsn
        norm_num at hsn
      · exact wrap_eq_of (k := -1) (by linarith)
          (by have := lt_of_le_of_ne hpi hpi'; linarith) (by push_cast; ring)
    rw [this, abs_of_nonpos (not_lt.1 hpos), arccos_neg, abs_of_nonpos (by linarith)]
    ring

theorem quat_angle_negligible {p : Quat ℝ} (h : p.IsUnit) (hn : Negligible p) :
    quat_angle p = 0 := by
  have h1 : p.w*p.w + p.x*p.x + p.y*p.y + p.z*p.z = 1 := h
  have hp := pi_pos
  have hna : allclose0 p.vec := hn
  unfold quat_angle
  rw [safe_norm_zero hna]
  have hw : p.w ≠ 0 := by
    intro hw
    have := not_allclose_of_unit (k := p.vec) (by
      simp only [Quat.vec_x, Quat.vec_y, Quat.vec_z]
      rw [hw] at h1; linear_combination h1)
    exact this hna
  rcases lt_or_gt_of_ne hw with hneg | hpos
  · have : atan2 0 p.w = π := by
      have := atan2_polar (r := -p.w) (θ := π) (by linarith) (by linarith) le_rfl
      rw [sin_pi, cos_pi] at this
      simpa using this
    rw [this]
    exact wrap_eq_of (k := -1) (by linarith) hp (by push_cast; ring)
  · have : atan2 0 p.w = 0 := by
      have := atan2_polar (r := p.w) (θ := 0) hpos (by linarith) hp.le
      rw [sin_zero, cos_zero] at this
      simpa using this
    rw [this, mul_zero]
    exact wrap_id (by linarith) hp

/-- the true angle of a negligible rotation is tiny -/
theorem rotationAngle_negligible {p : Quat ℝ} (h : p.IsUnit) (hn : Negligible p) :
    0 ≤ rotationAngle p ∧ rotationAngle p ≤ 1e-7 := by
  have h1 : p.w*p.w + p.x*p.x + p.y*p.y + p.z*p.z = 1 := h
  have hp := pi_gt_three
  obtain ⟨hx, hy, hz⟩ := hn
  have hw1 : |p.w| ≤ 1 := by rw [abs_le]; constructor <;> nlinarith [sq_nonneg p.x, sq_nonneg p.y, sq_nonneg p.z]
  unfold rotationAngle
  refine ⟨by linarith [arccos_nonneg |p.w|], ?_⟩
  have key : arccos |p.w| ≤ 5e-8 := by
    by_contra hc
    push Not at hc
    have hcos : |p.w| < cos 5e-8 := by
      have := strictAntiOn_cos (a := 5e-8) (b := arccos |p.w|) ⟨by norm_num, by linarith⟩
        ⟨arccos_nonneg _, arccos_le_pi _⟩ hc
      rwa [cos_arccos (by linarith [abs_nonneg p.w]) hw1] at this
    have hsin : sin 5e-8 ^ 2 < p.x ^ 2 + p.y ^ 2 + p.z ^ 2 := by
      have h2 := sin_sq_add_cos_sq (5e-8 : ℝ)
      have h3 : |p.w| ^ 2 < cos 5e-8 ^ 2 := by
        have := abs_nonneg p.w
        nlinarith
      rw [sq_abs] at h3
      nlinarith
    have hsin2 : (4e-8 : ℝ) < sin 5e-8 := by
      have := sin_gt_sub_cube (x := (5e-8 : ℝ)) (by norm_num)
      norm_num at this ⊢
      linarith
    have e : ∀ {x : ℝ}, |x| ≤ 1e-8 → x ^ 2 ≤ 1e-16 := by
      intro x hx
      rw [← sq_abs]
      have := abs_nonneg x
      nlinarith
    have := e hx
    have := e hy
    have := e hz
    norm_num at *
    nlinarith
  linarith

/-- C14: `angle_error` is the angle of the relative rotation; relative rotations within the tolerance
of `jnp.isclose` are reported as exactly zero. -/
theorem C14_angle_error {p q : Quat ℝ} (hp : p.IsUnit) (hq : q.IsUnit) :
    (¬ Negligible (quat_mul (quat_inv p) q) →
      angle_error p q = 2 * arccos |p.w * q.w + p.x * q.x + p.y * q.y + p.z * q.z|) ∧
    (Negligible (quat_mul (quat_inv p) q) → angle_error p q = 0 ∧
      2 * arccos |p.w * q.w + p.x * q.x + p.y * q.y + p.z * q.z| ≤ 1e-7) := by
  have hu : (quat_mul (quat_inv p) q).IsUnit :=
    (C12_unit_closed (C12_unit_closed hp hp).2 hq).1
  have hw : (quat_mul (quat_inv p) q).w = p.w * q.w + p.x * q.x + p.y * q.y + p.z * q.z := by
    simp [quat_mul]
  constructor
  · intro hn
    unfold angle_error
    rw [abs_quat_angle hu hn, rotationAngle, hw]
  · intro hn
    unfold angle_error
    rw [quat_angle_negligible hu hn, abs_zero]
    have := (rotationAngle_negligible hu hn).2
    rw [rotationAngle, hw] at this
    exact ⟨rfl, this⟩

theorem negligible_inv (p : Quat ℝ) : Negligible (quat_inv p) ↔ Negligible p := by
  simp [Negligible]

theorem negligible_neg (p : Quat ℝ) : Negligible (-p) ↔ Negligible p := by
  simp [Negligible]

/-- the absolute angle depends only on `|w|` and on being negligible -/
theorem abs_quat_angle_congr {p q : Quat ℝ} (hp : p.IsUnit) (hq : q.IsUnit) (hw : |p.w| = |q.w|)
    (hn : Negligible p ↔ Negligible q) : |quat_angle p| = |quat_angle q| := by
  by_cases h : Negligible p
  · rw [quat_angle_negligible hp h, quat_angle_negligible hq (hn.1 h)]
  · rw [abs_quat_angle hp h, abs_quat_angle hq (fun h' => h (hn.2 h')), rotationAngle, rotationAngle,
      hw]

/-- C14: `angle_error` lies in `[0, π]`, is symmetric, vanishes for equal orientations (also if the
quaternions differ in sign), does not see signs, and is unchanged by a common rotation of the
reference frame (left factor). -/
theorem C14_angle_error_laws {p q r : Quat ℝ} (hp : p.IsUnit) (hq : q.IsUnit) (hr : r.IsUnit) :
    (0 ≤ angle_error p q ∧ angle_error p q ≤ π) ∧ angle_error p q = angle_error q p ∧
    angle_error p p = 0 ∧ angle_error p (-p) = 0 ∧
    angle_error (-p) q = angle_error p q ∧ angle_error p (-q) = angle_error p q ∧
    angle_error (quat_mul r p) (quat_mul r q) = angle_error p q := by
  have hu : ∀ {p q : Quat ℝ}, p.IsUnit → q.IsUnit → (quat_mul (quat_inv p) q).IsUnit :=
    fun hp hq => (C12_unit_closed (C12_unit_closed hp hp).2 hq).1
  have hneg : ∀ {p : Quat ℝ}, p.IsUnit → (-p).IsUnit := by
    intro p hp
    have : p.w*p.w + p.x*p.x + p.y*p.y + p.z*p.z = 1 := hp
    show -p.w * -p.w + -p.x * -p.x + -p.y * -p.y + -p.z * -p.z = 1
    linear_combination this
  have self : angle_error p p = 0 := by
    unfold angle_error
    rw [quat_angle_negligible (hu hp hp), abs_zero]
    rw [inv_mul_self hp]
    norm_num [Negligible, unitQuat]
  have negr : ∀ {p q : Quat ℝ}, p.IsUnit → q.IsUnit → angle_error p (-q) = angle_error p q := by
    intro p q hp hq
    unfold angle_error
    have e : quat_mul (quat_inv p) (-q) = -quat_mul (quat_inv p) q := by
      ext <;> simp [quat_mul] <;> ring
    rw [e]
    exact abs_quat_angle_congr (hneg (hu hp hq)) (hu hp hq) (by simp) (negligible_neg _)
  refine ⟨⟨abs_nonneg _, ?_⟩, ?_, self, by rw [negr hp hp, self], ?_, negr hp hq, ?_⟩
  · unfold angle_error
    obtain ⟨h1, h2⟩ := wrap_mem (2 * atan2 (safe_norm (quat_mul (quat_inv p) q).vec)
      (quat_mul (quat_inv p) q).w)
    exact abs_le.2 ⟨h1, h2.le⟩
  · unfold angle_error
    have e : quat_mul (quat_inv q) p = quat_inv (quat_mul (quat_inv p) q) := by
      rw [quat_inv_mul, quat_inv_inv]
    rw [e]
    exact abs_quat_angle_congr (hu hp hq) ((C12_unit_closed (hu hp hq) hp).2) (by simp)
      (negligible_inv _).symm
  · unfold angle_error
    have e : quat_mul (quat_inv (-p)) q = -quat_mul (quat_inv p) q := by
      ext <;> simp [quat_mul] <;> ring
    rw [e]
    exact abs_quat_angle_congr (hneg (hu hp hq)) (hu hp hq) (by simp) (negligible_neg _)
  · unfold angle_error
    have e : quat_mul (quat_inv (quat_mul r p)) (quat_mul r q) = quat_mul (quat_inv p) q := by
      rw [quat_inv_mul, quat_mul_assoc', ← quat_mul_assoc' (quat_inv r) r q, inv_mul_self hr,
        unit_mul]
    rw [e]

/-- C14: a common right factor (a different choice of body frame) changes `angle_error` by at most
the tolerance. -/
theorem C14_angle_error_right_partial {p q r : Quat ℝ} (hp : p.IsUnit) (hq : q.IsUnit)
    (hr : r.IsUnit) :
    |angle_error (quat_mul p r) (quat_mul q r) - angle_error p q| ≤ 1e-7 := by
  have hu : ∀ {p q : Quat ℝ}, p.IsUnit → q.IsUnit → (quat_mul (quat_inv p) q).IsUnit :=
    fun hp hq => (C12_unit_closed (C12_unit_closed hp hp).2 hq).1
  have hpr := (C12_unit_closed hp hr).1
  have hqr := (C12_unit_closed hq hr).1
  have hrot : rotationAngle (quat_mul (quat_inv (quat_mul p r)) (quat_mul q r)) =
      rotationAngle (quat_mul (quat_inv p) q) := by
    unfold rotationAngle
    congr 3
    have h1 : r.w*r.w + r.x*r.x + r.y*r.y + r.z*r.z = 1 := hr
    simp [quat_mul]
    linear_combination (p.w * q.w + p.x * q.x + p.y * q.y + p.z * q.z) * h1
  have key : ∀ {a : Quat ℝ}, a.IsUnit → (|quat_angle a| ≤ rotationAngle a ∧
      rotationAngle a - 1e-7 ≤ |quat_angle a|) := by
    intro a ha
    by_cases hn : Negligible a
    · have := rotationAngle_negligible ha hn
      rw [quat_angle_negligible ha hn, abs_zero]
      constructor <;> linarith
    · rw [abs_quat_angle ha hn]
      constructor <;> norm_num
  unfold angle_error
  have k1 := key (hu hp hq)
  have k2 := key (hu hpr hqr)
  rw [hrot] at k2
  rw [abs_le]
  constructor <;> linarith

/-- C14: exact invariance under a common right factor fails because the tolerance is tested
componentwise: a rotation can be negligible in one frame and not in another. -/
theorem C14_angle_error_right_fails :
    ∃ p q r : Quat ℝ, p.IsUnit ∧ q.IsUnit ∧ r.IsUnit ∧
      angle_error (quat_mul p r) (quat_mul q r) ≠ angle_error p q := by
  set w := √(1 - 2 * (1e-8 : ℝ) ^ 2) with hw
  have hw2 : w ^ 2 = 1 - 2 * (1e-8 : ℝ) ^ 2 := sq_sqrt (by norm_num)
  have hq : (⟨w, 1e-8, 1e-8, 0⟩ : Quat ℝ).IsUnit := by
    show w * w + _ + _ + _ = 1
    linear_combination hw2
  have hp : (⟨1, 0, 0, 0⟩ : Quat ℝ).IsUnit := by norm_num [Quat.IsUnit]
  have hr : (⟨4 / 5, 0, 0, 3 / 5⟩ : Quat ℝ).IsUnit := by norm_num [Quat.IsUnit]
  refine ⟨⟨1, 0, 0, 0⟩, ⟨w, 1e-8, 1e-8, 0⟩, ⟨4 / 5, 0, 0, 3 / 5⟩, hp, hq, hr, ?_⟩
  have h0 : angle_error ⟨1, 0, 0, 0⟩ ⟨w, 1e-8, 1e-8, 0⟩ = 0 := by
    apply ((C14_angle_error hp hq).2 _).1
    norm_num [Negligible, quat_mul, abs_of_pos]
  have hnn : ¬ Negligible (quat_mul (quat_inv (quat_mul (⟨1, 0, 0, 0⟩ : Quat ℝ) ⟨4 / 5, 0, 0, 3 / 5⟩))
      (quat_mul (⟨w, 1e-8, 1e-8, 0⟩ : Quat ℝ) ⟨4 / 5, 0, 0, 3 / 5⟩)) := by
    rintro ⟨hx, hy, hz⟩
    simp only [quat_mul, quat_inv_w, quat_inv_x, quat_inv_y, quat_inv_z] at hx hy hz
    norm_num [abs_le] at hx
  rw [h0, (C14_angle_error (C12_unit_closed hp hr).1 (C12_unit_closed hq hr).1).1 hnn]
  intro hc
  have h2 : arccos |(quat_mul (⟨1, 0, 0, 0⟩ : Quat ℝ) ⟨4 / 5, 0, 0, 3 / 5⟩).w *
      (quat_mul (⟨w, 1e-8, 1e-8, 0⟩ : Quat ℝ) ⟨4 / 5, 0, 0, 3 / 5⟩).w +
      (quat_mul (⟨1, 0, 0, 0⟩ : Quat ℝ) ⟨4 / 5, 0, 0, 3 / 5⟩).x *
      (quat_mul (⟨w, 1e-8, 1e-8, 0⟩ : Quat ℝ) ⟨4 / 5, 0, 0, 3 / 5⟩).x +
      (quat_mul (⟨1, 0, 0, 0⟩ : Quat ℝ) ⟨4 / 5, 0, 0, 3 / 5⟩).y *
      (quat_mul (⟨w, 1e-8, 1e-8, 0⟩ : Quat ℝ) ⟨4 / 5, 0, 0, 3 / 5⟩).y +
      (quat_mul (⟨1, 0, 0, 0⟩ : Quat ℝ) ⟨4 / 5, 0, 0, 3 / 5⟩).z *
      (quat_mul (⟨w, 1e-8, 1e-8, 0⟩ : Quat ℝ) ⟨4 / 5, 0, 0, 3 / 5⟩).z| = 0 := by linarith
  rw [arccos_eq_zero] at h2
  have hw0 : 0 ≤ w := sqrt_nonneg _
  have hw1 : w < 1 := by nlinarith
  simp only [quat_mul] at h2
  ring_nf at h2
  rw [abs_of_nonneg hw0] at h2
  linarith

/-! ## C15 -/

/-- C15: `quat_rot_axis` is a unit quaternion that fixes its axis and rotates every vector by the
Rodrigues formula, with angle `-angle` (the frame convention of the library). -/
theorem C15_rot_axis {axis : Vec3 ℝ}
    (h : ¬ (|axis.x| ≤ 1e-8 ∧ |axis.y| ≤ 1e-8 ∧ |axis.z| ≤ 1e-8)) (angle : ℝ) :
    (quat_rot_axis axis angle).IsUnit ∧ rotate axis (quat_rot_axis axis angle) = axis ∧
    ∀ v, ∃ k : Vec3 ℝ, axis = .smul (√(axis.x ^ 2 + axis.y ^ 2 + axis.z ^ 2)) k ∧
      rotate v (quat_rot_axis axis angle) =
        .smul (cos angle) v - .smul (sin angle) (k.cross v) +
          .smul ((1 - cos angle) * k.dot v) k := by
  have hna : ¬ allclose0 axis := h
  have hk := safe_normalize_unit hna
  have hpos := norm3_pos hna
  have hax : axis = .smul (norm3 axis) (safe_normalize axis) := by
    rw [safe_normalize_of hna]
    ext <;> simp only [Vec3.smul_x, Vec3.smul_y, Vec3.smul_z] <;> field_simp
  rw [quat_rot_axis_eq]
  set k := safe_normalize axis
  have hrod : ∀ v, rotate v (rotQuat k (-angle)) =
      .smul (cos angle) v - .smul (sin angle) (k.cross v) +
          .smul ((1 - cos angle) * k.dot v) k := by
    intro v
    have hc : cos angle = cos (angle / 2) ^ 2 - sin (angle / 2) ^ 2 := by
      rw [show angle = 2 * (angle / 2) by ring, cos_two_mul']; ring_nf
    have hs : sin angle = 2 * sin (angle / 2) * cos (angle / 2) := by
      rw [show angle = 2 * (angle / 2) by ring, sin_two_mul]; ring_nf
    have h1 := sin_sq_add_cos_sq (angle / 2)
    have e : -angle / 2 = -(angle / 2) := by ring
    set c := cos (angle / 2)
    set s := sin (angle / 2)
    ext
    · simp only [rotate_x, rotQuat, e, cos_neg, sin_neg, Vec3.add_x, Vec3.sub_x, Vec3.smul_x,
        Vec3.cross_x, Vec3.dot, hc, hs]
      linear_combination (-s ^ 2 * v.x) * hk + ((k.x*v.x + k.y*v.y + k.z*v.z) * k.x) * h1
    · simp only [rotate_y, rotQuat, e, cos_neg, sin_neg, Vec3.add_y, Vec3.sub_y, Vec3.smul_y,
        Vec3.cross_y, Vec3.dot, hc, hs]
      linear_combination (-s ^ 2 * v.y) * hk + ((k.x*v.x + k.y*v.y + k.z*v.z) * k.y) * h1
    · simp only [rotate_z, rotQuat, e, cos_neg, sin_neg, Vec3.add_z, Vec3.sub_z, Vec3.smul_z,
        Vec3.cross_z, Vec3.dot, hc, hs]
      linear_combination (-s ^ 2 * v.z) * hk + ((k.x*v.x + k.y*v.y + k.z*v.z) * k.z) * h1
  refine ⟨rotQuat_unit hk _, ?_, fun v => ⟨k, hax, hrod v⟩⟩
  rw [hax, rotate_smul, hrod k]
  ext <;> simp only [Vec3.smul_x, Vec3.smul_y, Vec3.smul_z, Vec3.add_x, Vec3.add_y, Vec3.add_z,
    Vec3.sub_x, Vec3.sub_y, Vec3.sub_z, Vec3.cross_x, Vec3.cross_y, Vec3.cross_z, Vec3.dot]
  · linear_combination (norm3 axis * (1 - cos angle) * k.x) * hk
  · linear_combination (norm3 axis * (1 - cos angle) * k.y) * hk
  · linear_combination (norm3 axis * (1 - cos angle) * k.z) * hk

/-- C15: rotations about a common axis add their angles; the inverse is the negative angle. -/
theorem C15_rot_axis_add {axis : Vec3 ℝ}
    (h : ¬ (|axis.x| ≤ 1e-8 ∧ |axis.y| ≤ 1e-8 ∧ |axis.z| ≤ 1e-8)) (a b : ℝ) :
    quat_mul (quat_rot_axis axis a) (quat_rot_axis axis b) = quat_rot_axis axis (a + b) ∧
    quat_inv (quat_rot_axis axis a) = quat_rot_axis axis (-a) := by
  have hk := safe_normalize_unit (v := axis) h
  simp only [quat_rot_axis_eq]
  rw [rotQuat_add hk, rotQuat_inv]
  constructor <;> congr 1
  ring

/-- C15: an axis of negligible length gives no rotation about any axis: the imaginary part is
zero. -/
theorem C15_rot_axis_degenerate {axis : Vec3 ℝ}
    (h : |axis.x| ≤ 1e-8 ∧ |axis.y| ≤ 1e-8 ∧ |axis.z| ≤ 1e-8) (angle : ℝ) :
    quat_rot_axis axis angle = ⟨cos (angle / 2), 0, 0, 0⟩ := by
  rw [quat_rot_axis_eq, safe_normalize_zero h]
  ext <;> simp [rotQuat, neg_div]

/-- C15: axis and angle extracted from a unit quaternion give the same quaternion back, up to sign,
outside the tolerance. -/
theorem C15_round_trip {q : Quat ℝ} (h : q.IsUnit) (hn : ¬ Negligible q) :
    quat_rot_axis (quat_to_rot_axis q).1 (quat_to_rot_axis q).2 = if 0 < q.w then q else -q := by
  have h1 : q.w*q.w + q.x*q.x + q.y*q.y + q.z*q.z = 1 := h
  have hna : ¬ allclose0 q.vec := hn
  have hpi := pi_pos
  have hpos := norm3_pos hna
  have hsq := norm3_sq q.vec
  simp only [Quat.vec_x, Quat.vec_y, Quat.vec_z] at hsq
  unfold quat_to_rot_axis
  rw [quat_rot_axis_eq, safe_normalize_of_unit (safe_normalize_unit hna), safe_normalize_of hna]
  unfold quat_angle
  rw [safe_norm_of hna]
  have hsum : q.w ^ 2 + norm3 q.vec ^ 2 = 1 := by rw [hsq]; linear_combination h1
  set φ := atan2 (norm3 q.vec) q.w with hφ
  have hc : cos φ = q.w := by
    rw [hφ, cos_atan2 (by rw [hsum]; norm_num), hsum, sqrt_one, div_one]
  have hs : sin φ = norm3 q.vec := by
    rw [hφ, sin_atan2, hsum, sqrt_one, div_one]
  have hφ0 : 0 < φ := by
    by_contra hc'
    have := (atan2_mem (norm3 q.vec) q.w).1
    have hs2 := sin_nonpos_of_nonpos_of_neg_pi_le (not_lt.1 hc') (by rw [hφ]; linarith)
    linarith
  have hφ1 : φ < π := by
    have := (atan2_mem (norm3 q.vec) q.w).2
    rcases lt_or_eq_of_le this with h | h
    · exact h
    · rw [hφ, h, sin_pi] at hs
      linarith
  split
  · rename_i hw
    have hlt : φ < π / 2 := by
      by_contra hc'
      have := cos_nonpos_of_pi_div_two_le_of_le (not_lt.1 hc') (by linarith)
      linarith
    rw [wrap_id (by linarith) (by linarith)]
    have e : -(2 * φ * -1) / 2 = φ := by ring
    ext <;> simp only [rotQuat, e, hc, hs, Quat.vec_x, Quat.vec_y, Quat.vec_z] <;> field_simp
  · rename_i hw
    have hge : π / 2 ≤ φ := by
      by_contra hc'
      have := cos_pos_of_mem_Ioo (x := φ) ⟨by linarith, not_le.1 hc'⟩
      rw [hc] at this
      exact hw this
    have : wrap_to_pi (2 * φ) = 2 * φ - 2 * π :=
      wrap_eq_of (k := -1) (by linarith) (by linarith) (by push_cast; ring)
    rw [this]
    have e : -((2 * φ - 2 * π) * -1) / 2 = φ - π := by ring
    ext <;> simp only [rotQuat, e, cos_sub_pi, sin_sub_pi, hc, hs, Quat.vec_x, Quat.vec_y,
      Quat.vec_z, Quat.neg_w, Quat.neg_x, Quat.neg_y, Quat.neg_z] <;> field_simp

/-- C15: hence it describes the same rotation. -/
theorem C15_round_trip_rotation {q : Quat ℝ} (h : q.IsUnit) (hn : ¬ Negligible q) (v : Vec3 ℝ) :
    rotate v (quat_rot_axis (quat_to_rot_axis q).1 (quat_to_rot_axis q).2) = rotate v q := by
  rw [C15_round_trip h hn]
  split
  · rfl
  · exact rotate_neg_quat v q

/-- C15: within the tolerance the identity is returned. -/
theorem C15_round_trip_negligible {q : Quat ℝ} (h : q.IsUnit) (hn : Negligible q) :
    quat_rot_axis (quat_to_rot_axis q).1 (quat_to_rot_axis q).2 = ⟨1, 0, 0, 0⟩ := by
  unfold quat_to_rot_axis
  rw [quat_angle_negligible h hn, safe_normalize_zero (v := q.vec) hn]
  have : allclose0 (0 : Vec3 ℝ) := by
    unfold allclose0 isclose0
    norm_num
  rw [quat_rot_axis_eq, safe_normalize_zero this]
  ext <;> simp [rotQuat]

/-! ## C16 -/

theorem project_eq {q : Quat ℝ} {k : Vec3 ℝ} (hk : k.x ^ 2 + k.y ^ 2 + k.z ^ 2 = 1) :
    (quat_project q k).1 = rotQuat k (2 * atan2 (q.vec.dot k) q.w) := by
  unfold quat_project
  simp only
  rw [quat_rot_axis_eq, safe_normalize_of_unit hk, neg_neg]

/-- C16: `q = q_res * q_pri`, `q_pri` is a unit quaternion about `k` (it fixes `k`), and both are
unit quaternions. -/
theorem C16_decompose {q : Quat ℝ} (hq : q.IsUnit) {k : Vec3 ℝ}
    (hk : k.x ^ 2 + k.y ^ 2 + k.z ^ 2 = 1) :
    quat_mul (quat_project q k).2 (quat_project q k).1 = q ∧
    (quat_project q k).1.IsUnit ∧ (quat_project q k).2.IsUnit ∧
    (∃ φ, (quat_project q k).1 = ⟨cos φ, sin φ * k.x, sin φ * k.y, sin φ * k.z⟩) ∧
    rotate k (quat_project q k).1 = k := by
  have hu : (quat_project q k).1.IsUnit := by rw [project_eq hk]; exact rotQuat_unit hk _
  refine ⟨?_, hu, ?_, ⟨atan2 (q.vec.dot k) q.w, ?_⟩, ?_⟩
  · show quat_mul (quat_mul q (quat_inv (quat_project q k).1)) (quat_project q k).1 = q
    rw [quat_mul_assoc', inv_mul_self hu, mul_unit]
  · exact (C12_unit_closed hq (C12_unit_closed hu hu).2).1
  · rw [project_eq hk]
    unfold rotQuat
    rw [show 2 * atan2 (q.vec.dot k) q.w / 2 = atan2 (q.vec.dot k) q.w by ring]
  · have := (C15_rot_axis (axis := k) (not_allclose_of_unit hk)
      (-(2 * atan2 (q.vec.dot k) q.w))).2.1
    exact this

/-- scalar part of a residual -/
theorem residual_w {q : Quat ℝ} {k : Vec3 ℝ} (φ : ℝ) :
    (quat_mul q (quat_inv (rotQuat k φ))).w =
      q.w * cos (φ / 2) + q.vec.dot k * sin (φ / 2) := by
  simp [quat_mul, rotQuat, Vec3.dot]
  ring

theorem project_res_w {q : Quat ℝ} {k : Vec3 ℝ} (hk : k.x ^ 2 + k.y ^ 2 + k.z ^ 2 = 1) :
    (quat_project q k).2.w = √(q.w ^ 2 + q.vec.dot k ^ 2) := by
  show (quat_mul q (quat_inv (quat_project q k).1)).w = _
  rw [project_eq hk, residual_w]
  rw [show 2 * atan2 (q.vec.dot k) q.w / 2 = atan2 (q.vec.dot k) q.w by ring]
  by_cases h0 : q.w ^ 2 + q.vec.dot k ^ 2 = 0
  · have h1 : q.w = 0 := by nlinarith [sq_nonneg q.w, sq_nonneg (q.vec.dot k)]
    have h2 : q.vec.dot k = 0 := by nlinarith [sq_nonneg q.w, sq_nonneg (q.vec.dot k)]
    rw [h1, h2]; simp
  · have hpos : 0 < √(q.w ^ 2 + q.vec.dot k ^ 2) :=
      sqrt_pos.2 (lt_of_le_of_ne (by positivity) (Ne.symm h0))
    rw [cos_atan2 h0, sin_atan2]
    have := sq_sqrt (show 0 ≤ q.w ^ 2 + q.vec.dot k ^ 2 by positivity)
    field_simp
    linear_combination -this

/-- C16: among all rotations about `k` the primary one leaves the residual of smallest angle. -/
theorem C16_minimal {q : Quat ℝ} {k : Vec3 ℝ} (hk : k.x ^ 2 + k.y ^ 2 + k.z ^ 2 = 1) (ψ : ℝ) :
    rotationAngle (quat_project q k).2 ≤
      rotationAngle (quat_mul q (quat_inv (quat_rot_axis k ψ))) := by
  unfold rotationAngle
  have : |(quat_mul q (quat_inv (quat_rot_axis k ψ))).w| ≤ |(quat_project q k).2.w| := by
    rw [project_res_w hk, quat_rot_axis_eq, safe_normalize_of_unit hk, residual_w,
      abs_of_nonneg (sqrt_nonneg _)]
    apply abs_le_sqrt
    have := sin_sq_add_cos_sq (-ψ / 2)
    nlinarith [sq_nonneg (q.w * sin (-ψ / 2) - q.vec.dot k * cos (-ψ / 2))]
  have := antitone_arccos this
  linarith

/-- C16: the residual has no component about `k` (so projecting it again gives the identity). -/
theorem C16_residual_orthogonal {q : Quat ℝ} {k : Vec3 ℝ} (hk : k.x ^ 2 + k.y ^ 2 + k.z ^ 2 = 1) :
    (quat_project q k).2.vec.dot k = 0 := by
  show (quat_mul q (quat_inv (quat_project q k).1)).vec.dot k = _
  rw [project_eq hk]
  have e : (quat_mul q (quat_inv (rotQuat k (2 * atan2 (q.vec.dot k) q.w)))).vec.dot k =
      q.vec.dot k * cos (atan2 (q.vec.dot k) q.w) - q.w * sin (atan2 (q.vec.dot k) q.w) := by
    unfold rotQuat
    rw [show 2 * atan2 (q.vec.dot k) q.w / 2 = atan2 (q.vec.dot k) q.w by ring]
    generalize atan2 (q.vec.dot k) q.w = t
    simp only [Vec3.dot, quat_mul, quat_inv_w, quat_inv_x, quat_inv_y, quat_inv_z, Quat.vec_x,
      Quat.vec_y, Quat.vec_z]
    linear_combination (-q.w * sin t) * hk
  rw [e]
  by_cases h0 : q.w ^ 2 + q.vec.dot k ^ 2 = 0
  · have h1 : q.w = 0 := by nlinarith [sq_nonneg q.w, sq_nonneg (q.vec.dot k)]
    have h2 : q.vec.dot k = 0 := by nlinarith [sq_nonneg q.w, sq_nonneg (q.vec.dot k)]
    rw [h1, h2]; simp
  · rw [cos_atan2 h0, sin_atan2]
    ring

/-- multiplying a residual by a rotation about `k` and projecting gives both factors back -/
theorem project_mul {p : Quat ℝ} {k : Vec3 ℝ} (hk : k.x ^ 2 + k.y ^ 2 + k.z ^ 2 = 1)
    (hw : 0 < p.w) (hp : p.vec.dot k = 0) {t : ℝ} (h1 : -π < t) (h2 : t ≤ π) :
    quat_project (quat_mul p (rotQuat k (2 * t))) k = (rotQuat k (2 * t), p) := by
  have ew : (quat_mul p (rotQuat k (2 * t))).w = p.w * cos t := by
    have : (quat_mul p (rotQuat k (2 * t))).w = p.w * cos t - p.vec.dot k * sin t := by
      unfold rotQuat
      rw [show 2 * t / 2 = t by ring]
      simp only [quat_mul, Vec3.dot, Quat.vec_x, Quat.vec_y, Quat.vec_z]; ring
    rw [this, hp]; ring
  have ev : (quat_mul p (rotQuat k (2 * t))).vec.dot k = p.w * sin t := by
    have : (quat_mul p (rotQuat k (2 * t))).vec.dot k =
        p.w * sin t + p.vec.dot k * cos t := by
      unfold rotQuat
      rw [show 2 * t / 2 = t by ring]
      simp only [quat_mul, Vec3.dot, Quat.vec_x, Quat.vec_y, Quat.vec_z]
      linear_combination (p.w * sin t) * hk
    rw [this, hp]; ring
  have e1 : (quat_project (quat_mul p (rotQuat k (2 * t))) k).1 = rotQuat k (2 * t) := by
    rw [project_eq hk, ew, ev, atan2_polar hw h1 h2]
  have e2 : (quat_project (quat_mul p (rotQuat k (2 * t))) k).2 = p := by
    show quat_mul (quat_mul p (rotQuat k (2 * t))) (quat_inv
      (quat_project (quat_mul p (rotQuat k (2 * t))) k).1) = p
    rw [e1, quat_mul_assoc', mul_inv_self (rotQuat_unit hk _), mul_unit]
  exact Prod.ext e1 e2

/-- C16: `quat_transfer_heading` has the heading of the first and the inclination of the second
argument (unless the second is an upside-down orientation, for which heading is undefined). -/
theorem C16_transfer_heading {p q : Quat ℝ} (hnd : q.w ^ 2 + q.z ^ 2 ≠ 0) :
    (quat_project (quat_transfer_heading p q) ⟨0, 0, 1⟩).1 = (quat_project p ⟨0, 0, 1⟩).1 ∧
    (quat_project (quat_transfer_heading p q) ⟨0, 0, 1⟩).2 = (quat_project q ⟨0, 0, 1⟩).2 := by
  have hk : (⟨0, 0, 1⟩ : Vec3 ℝ).x ^ 2 + (⟨0, 0, 1⟩ : Vec3 ℝ).y ^ 2 + (⟨0, 0, 1⟩ : Vec3 ℝ).z ^ 2 = 1 := by
    norm_num
  have hw : 0 < (quat_project q ⟨0, 0, 1⟩).2.w := by
    rw [project_res_w hk]
    apply sqrt_pos.2
    have : q.vec.dot ⟨0, 0, 1⟩ = q.z := by simp [Vec3.dot]
    rw [this]
    exact lt_of_le_of_ne (by positivity) (Ne.symm hnd)
  have hm := atan2_mem (p.vec.dot ⟨0, 0, 1⟩) p.w
  have := project_mul hk hw (C16_residual_orthogonal hk) hm.1 hm.2
  unfold quat_transfer_heading
  simp only
  rw [project_eq (q := p) hk, this]
  exact ⟨rfl, rfl⟩

/-- C16: in particular the inclination angle is that of the second, the heading angle that of the
first argument. -/
theorem C16_transfer_heading_angles {p q : Quat ℝ} (hnd : q.w ^ 2 + q.z ^ 2 ≠ 0) :
    quat_inclinationAngle (quat_transfer_heading p q) = quat_inclinationAngle q ∧
    quat_headingAngle (quat_transfer_heading p q) = quat_headingAngle p := by
  unfold quat_inclinationAngle quat_headingAngle
  obtain ⟨h1, h2⟩ := C16_transfer_heading (p := p) hnd
  rw [h1, h2]
  exact ⟨rfl, rfl⟩

/-! ## C17 -/

theorem axis_unit (a : Axis) :
    (a.unit : Vec3 ℝ).x ^ 2 + (a.unit : Vec3 ℝ).y ^ 2 + (a.unit : Vec3 ℝ).z ^ 2 = 1 := by
  cases a <;> simp [Axis.unit]

/-- C17: `quat_euler` gives a unit quaternion for every convention. -/
theorem C17_quat_euler_unit (a : Vec3 ℝ) (intrinsic : Bool) (c : Axis × Axis × Axis) :
    (quat_euler a intrinsic c).IsUnit := by
  have h : ∀ (ax : Axis) φ, (quat_rot_axis ax.unit φ).IsUnit := by
    intro ax φ
    rw [quat_rot_axis_eq, safe_normalize_of_unit (axis_unit ax)]
    exact rotQuat_unit (axis_unit ax) _
  unfold quat_euler
  split
  · exact (C12_unit_closed (h _ _) (C12_unit_closed (h _ _) (h _ _)).1).1
  · exact (C12_unit_closed (h _ _) (C12_unit_closed (h _ _) (h _ _)).1).1

/-- C17: extrinsic rotations are the intrinsic ones in reversed order. -/
theorem C17_intrinsic_extrinsic (a b c : ℝ) (i j k : Axis) :
    quat_euler ⟨a, b, c⟩ false (i, j, k) = quat_euler ⟨c, b, a⟩ true (k, j, i) := rfl

/-- C17: the closed formula `euler_to_quat` is the product of three rotations about x, y, z. -/
theorem C17_euler_to_quat (a : Vec3 ℝ) :
    quat_euler a true (.x, .y, .z) = euler_to_quat a ∧ (euler_to_quat a).IsUnit := by
  have e : quat_euler a true (.x, .y, .z) = euler_to_quat a := by
    unfold quat_euler euler_to_quat
    simp only [quat_rot_axis_eq, safe_normalize_of_unit (axis_unit _), if_true]
    ext <;> simp [quat_mul, rotQuat, Axis.unit, neg_div] <;> ring
  exact ⟨e, e ▸ C17_quat_euler_unit _ _ _⟩

/-- C17: reading the angles back. -/
theorem C17_to_euler {a : Vec3 ℝ} (hx : -π < a.x ∧ a.x ≤ π) (hy : -(π / 2) < a.y ∧ a.y < π / 2)
    (hz : -π < a.z ∧ a.z ≤ π) : quat_to_euler (euler_to_quat a) = a := by
  have hcy : 0 < cos a.y := cos_pos_of_mem_Ioo ⟨hy.1, hy.2⟩
  have dc : ∀ t : ℝ, cos t = cos (t / 2) ^ 2 - sin (t / 2) ^ 2 := by
    intro t
    have := cos_two_mul' (t / 2)
    rwa [show 2 * (t / 2) = t by ring] at this
  have ds : ∀ t : ℝ, sin t = 2 * sin (t / 2) * cos (t / 2) := by
    intro t
    have := sin_two_mul (t / 2)
    rwa [show 2 * (t / 2) = t by ring] at this
  have h1 := sin_sq_add_cos_sq (a.x / 2)
  have h2 := sin_sq_add_cos_sq (a.y / 2)
  have h3 := sin_sq_add_cos_sq (a.z / 2)
  unfold quat_to_euler euler_to_quat
  rw [quat_inv_inv]
  have dcx := dc a.x; have dcy := dc a.y; have dcz := dc a.z
  have dsx := ds a.x; have dsy := ds a.y; have dsz := ds a.z
  ext
  · refine (congrArg₂ atan2 ?_ ?_).trans (atan2_polar hcy hx.1 hx.2)
    · rw [dsx, dcy]
      linear_combination (2 * sin (a.x / 2) * cos (a.x / 2)) *
        (cos (a.y / 2) ^ 2 - sin (a.y / 2) ^ 2) * h3
    · rw [dcx, dcy]
      linear_combination (cos (a.x / 2) ^ 2 - sin (a.x / 2) ^ 2) *
        (cos (a.y / 2) ^ 2 - sin (a.y / 2) ^ 2) * h3
  · simp only
    have : 2 * (sin (a.x / 2) * cos (a.y / 2) * cos (a.z / 2) +
        cos (a.x / 2) * sin (a.y / 2) * sin (a.z / 2)) *
        (cos (a.x / 2) * cos (a.y / 2) * sin (a.z / 2) +
          sin (a.x / 2) * sin (a.y / 2) * cos (a.z / 2)) +
        2 * (cos (a.x / 2) * cos (a.y / 2) * cos (a.z / 2) -
          sin (a.x / 2) * sin (a.y / 2) * sin (a.z / 2)) *
        (cos (a.x / 2) * sin (a.y / 2) * cos (a.z / 2) -
          sin (a.x / 2) * cos (a.y / 2) * sin (a.z / 2)) = sin a.y := by
      rw [dsy]
      linear_combination (2 * sin (a.y / 2) * cos (a.y / 2)) *
        ((sin (a.z / 2) ^ 2 + cos (a.z / 2) ^ 2) * h1 + h3)
    rw [this, min_eq_left (sin_le_one _), max_eq_right (neg_one_le_sin _),
      arcsin_sin hy.1.le hy.2.le]
  · refine (congrArg₂ atan2 ?_ ?_).trans (atan2_polar hcy hz.1 hz.2)
    · rw [dsz, dcy]
      linear_combination (2 * sin (a.z / 2) * cos (a.z / 2)) *
        (cos (a.y / 2) ^ 2 - sin (a.y / 2) ^ 2) * h1
    · rw [dcz, dcy]
      linear_combination (cos (a.z / 2) ^ 2 - sin (a.z / 2) ^ 2) *
        (cos (a.y / 2) ^ 2 - sin (a.y / 2) ^ 2) * h1

/-! ## Examples -/

example : wrap_to_pi (3 * π / 2) = -(π / 2) :=
  wrap_eq_of (k := -1) (by linarith [pi_pos]) (by linarith [pi_pos]) (by push_cast; ring)

example : ¬ Negligible (⟨4 / 5, 0, 0, 3 / 5⟩ : Quat ℝ) := by
  rintro ⟨_, _, h⟩
  norm_num [abs_le] at h

example : quat_from_3x3 (quat_to_3x3 (⟨-4 / 5, 0, 0, 3 / 5⟩ : Quat ℝ)) = ⟨4 / 5, 0, 0, -3 / 5⟩ := by
  rw [C13_from_to (by norm_num [Quat.IsUnit]) (by norm_num), if_neg (by norm_num)]
  ext <;> norm_num

end RingLib
