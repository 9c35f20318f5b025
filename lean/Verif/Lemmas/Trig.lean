import Verif.Model.Trig
import Verif.Lemmas.Quat
import Mathlib.Tactic.Linarith
import Mathlib.Tactic.Positivity
import Mathlib.Tactic.NormNum
import Mathlib.Tactic.FieldSimp

namespace RingLib
namespace maths
open Real

/-! ## wrap_to_pi -/

theorem wrap_mem (φ : ℝ) : -π ≤ wrap_to_pi φ ∧ wrap_to_pi φ < π := by
  have h2 : (0 : ℝ) < 2 * π := by positivity
  unfold wrap_to_pi pyMod
  have h3 := Int.floor_le ((φ + π) / (2 * π))
  have h4 := Int.lt_floor_add_one ((φ + π) / (2 * π))
  rw [le_div_iff₀ h2] at h3
  rw [div_lt_iff₀ h2] at h4
  constructor <;> linarith

theorem wrap_congr (φ : ℝ) : ∃ k : ℤ, wrap_to_pi φ = φ + k * (2 * π) :=
  ⟨-⌊(φ + π) / (2 * π)⌋, by unfold wrap_to_pi pyMod; push_cast; ring⟩

/-- the value in `[-π, π)` is determined by congruence modulo `2π` -/
theorem wrap_eq_of {φ r : ℝ} (h1 : -π ≤ r) (h2 : r < π) {k : ℤ} (h : r = φ + k * (2 * π)) :
    wrap_to_pi φ = r := by
  obtain ⟨m, hm⟩ := wrap_congr φ
  obtain ⟨h3, h4⟩ := wrap_mem φ
  have hp := pi_pos
  have : m - k = 0 := by
    have e : wrap_to_pi φ - r = ((m - k : ℤ) : ℝ) * (2 * π) := by
      rw [hm, h]; push_cast; ring
    have l1 : ((m - k : ℤ) : ℝ) < 1 := by
      by_contra hc
      push Not at hc
      nlinarith
    have l2 : (-1 : ℝ) < ((m - k : ℤ) : ℝ) := by
      by_contra hc
      push Not at hc
      nlinarith
    have l1' : m - k < 1 := by exact_mod_cast l1
    have l2' : -1 < m - k := by exact_mod_cast l2
    omega
  rw [hm, h]
  have : m = k := by omega
  rw [this]

theorem wrap_id {φ : ℝ} (h1 : -π ≤ φ) (h2 : φ < π) : wrap_to_pi φ = φ :=
  wrap_eq_of h1 h2 (k := 0) (by simp)

theorem wrap_add (φ : ℝ) (k : ℤ) : wrap_to_pi (φ + k * (2 * π)) = wrap_to_pi φ := by
  obtain ⟨m, hm⟩ := wrap_congr φ
  obtain ⟨h1, h2⟩ := wrap_mem φ
  exact wrap_eq_of h1 h2 (k := m - k) (by rw [hm]; push_cast; ring)

theorem cos_wrap (φ : ℝ) : cos (wrap_to_pi φ) = cos φ := by
  obtain ⟨k, hk⟩ := wrap_congr φ
  rw [hk, cos_add_int_mul_two_pi]

theorem sin_wrap (φ : ℝ) : sin (wrap_to_pi φ) = sin φ := by
  obtain ⟨k, hk⟩ := wrap_congr φ
  rw [hk, sin_add_int_mul_two_pi]

/-! ## atan2 -/

theorem atan2_mem (y x : ℝ) : -π < atan2 y x ∧ atan2 y x ≤ π :=
  ⟨Complex.neg_pi_lt_arg _, Complex.arg_le_pi _⟩

theorem norm_mk (x y : ℝ) : ‖(⟨x, y⟩ : ℂ)‖ = √(x ^ 2 + y ^ 2) := by
  rw [Complex.norm_def, Complex.normSq_mk]
  congr 1
  ring

theorem cos_atan2 {y x : ℝ} (h : x ^ 2 + y ^ 2 ≠ 0) :
    cos (atan2 y x) = x / √(x ^ 2 + y ^ 2) := by
  unfold atan2
  rw [Complex.cos_arg, norm_mk]
  intro hc
  apply h
  have h1 := congrArg Complex.re hc
  have h2 := congrArg Complex.im hc
  simp at h1 h2
  rw [h1, h2]; ring

theorem sin_atan2 (y x : ℝ) : sin (atan2 y x) = y / √(x ^ 2 + y ^ 2) := by
  unfold atan2
  rw [Complex.sin_arg, norm_mk]

theorem atan2_polar {r θ : ℝ} (hr : 0 < r) (h1 : -π < θ) (h2 : θ ≤ π) :
    atan2 (r * sin θ) (r * cos θ) = θ := by
  unfold atan2
  have : (⟨r * cos θ, r * sin θ⟩ : ℂ) = (r : ℂ) * (Complex.cos θ + Complex.sin θ * Complex.I) := by
    apply Complex.ext <;> simp [Complex.cos_ofReal_re, Complex.sin_ofReal_re]
  rw [this, Complex.arg_mul_cos_add_sin_mul_I hr ⟨h1, h2⟩]

theorem atan2_unit {y x θ : ℝ} (h1 : -π < θ) (h2 : θ ≤ π) (hy : y = sin θ) (hx : x = cos θ) :
    atan2 y x = θ := by
  have := atan2_polar (r := 1) one_pos h1 h2
  rw [one_mul, one_mul] at this
  rw [hy, hx, this]

/-! ## safe_norm, safe_normalize -/

theorem norm3_nonneg (v : Vec3 ℝ) : 0 ≤ norm3 v := sqrt_nonneg _

theorem norm3_sq (v : Vec3 ℝ) : norm3 v ^ 2 = v.x ^ 2 + v.y ^ 2 + v.z ^ 2 := sq_sqrt (by positivity)

theorem norm3_pos {v : Vec3 ℝ} (h : ¬ allclose0 v) : 0 < norm3 v := by
  by_contra hc
  have h0 : norm3 v = 0 := le_antisymm (not_lt.1 hc) (norm3_nonneg v)
  have h1 := norm3_sq v
  rw [h0] at h1
  have hx : v.x = 0 := by nlinarith [sq_nonneg v.x, sq_nonneg v.y, sq_nonneg v.z]
  have hy : v.y = 0 := by nlinarith [sq_nonneg v.x, sq_nonneg v.y, sq_nonneg v.z]
  have hz : v.z = 0 := by nlinarith [sq_nonneg v.x, sq_nonneg v.y, sq_nonneg v.z]
  apply h
  unfold allclose0 isclose0
  rw [hx, hy, hz]
  norm_num

theorem safe_norm_of {v : Vec3 ℝ} (h : ¬ allclose0 v) : safe_norm v = norm3 v := if_neg h
theorem safe_norm_zero {v : Vec3 ℝ} (h : allclose0 v) : safe_norm v = 0 := if_pos h
theorem safe_normalize_zero {v : Vec3 ℝ} (h : allclose0 v) : safe_normalize v = 0 := if_pos h
theorem safe_normalize_of {v : Vec3 ℝ} (h : ¬ allclose0 v) :
    safe_normalize v = ⟨v.x / norm3 v, v.y / norm3 v, v.z / norm3 v⟩ := by
  unfold safe_normalize
  rw [if_neg h, safe_norm_of h]

theorem safe_norm_nonneg (v : Vec3 ℝ) : 0 ≤ safe_norm v := by
  by_cases h : allclose0 v
  · rw [safe_norm_zero h]
  · rw [safe_norm_of h]; exact norm3_nonneg v

theorem safe_normalize_unit {v : Vec3 ℝ} (h : ¬ allclose0 v) :
    (safe_normalize v).x ^ 2 + (safe_normalize v).y ^ 2 + (safe_normalize v).z ^ 2 = 1 := by
  rw [safe_normalize_of h]
  have := norm3_pos h
  have h2 := norm3_sq v
  simp only [div_pow]
  rw [← add_div, ← add_div, ← h2]
  field_simp

theorem norm3_of_unit {k : Vec3 ℝ} (hk : k.x ^ 2 + k.y ^ 2 + k.z ^ 2 = 1) : norm3 k = 1 := by
  unfold norm3; rw [hk, sqrt_one]

theorem not_allclose_of_unit {k : Vec3 ℝ} (hk : k.x ^ 2 + k.y ^ 2 + k.z ^ 2 = 1) :
    ¬ allclose0 k := by
  rintro ⟨h1, h2, h3⟩
  unfold isclose0 at h1 h2 h3
  have e : ∀ {x : ℝ}, |x| ≤ 1e-8 → x ^ 2 ≤ 1e-8 := by
    intro x hx
    rw [← sq_abs]
    have := abs_nonneg x
    nlinarith
  have := e h1
  have := e h2
  have := e h3
  norm_num at *
  linarith

theorem safe_normalize_of_unit {k : Vec3 ℝ} (hk : k.x ^ 2 + k.y ^ 2 + k.z ^ 2 = 1) :
    safe_normalize k = k := by
  rw [safe_normalize_of (not_allclose_of_unit hk), norm3_of_unit hk]
  simp

theorem safe_normalize_smul {s : ℝ} {v : Vec3 ℝ} (hs : 0 < s) (h : ¬ allclose0 v)
    (h' : ¬ allclose0 (.smul s v)) : safe_normalize (.smul s v) = safe_normalize v := by
  rw [safe_normalize_of h, safe_normalize_of h']
  have hn : norm3 (.smul s v) = s * norm3 v := by
    unfold norm3
    rw [show (Vec3.smul s v).x ^ 2 + (Vec3.smul s v).y ^ 2 + (Vec3.smul s v).z ^ 2 =
      s ^ 2 * (v.x ^ 2 + v.y ^ 2 + v.z ^ 2) by simp; ring, sqrt_mul (by positivity), sqrt_sq hs.le]
  have := norm3_pos h
  ext <;> simp only [hn, Vec3.smul_x, Vec3.smul_y, Vec3.smul_z] <;> field_simp

/-! ## quat_rot_axis -/

/-- `[cos (φ/2), sin (φ/2) k]` -/
noncomputable def rotQuat (k : Vec3 ℝ) (φ : ℝ) : Quat ℝ :=
  ⟨cos (φ / 2), sin (φ / 2) * k.x, sin (φ / 2) * k.y, sin (φ / 2) * k.z⟩

theorem quat_rot_axis_eq (axis : Vec3 ℝ) (angle : ℝ) :
    quat_rot_axis axis angle = rotQuat (safe_normalize axis) (-angle) := by
  unfold quat_rot_axis rotQuat
  rw [mul_neg_one]
  simp only [mul_comm]

theorem rotQuat_unit {k : Vec3 ℝ} (hk : k.x ^ 2 + k.y ^ 2 + k.z ^ 2 = 1) (φ : ℝ) :
    (rotQuat k φ).normSq = 1 := by
  have := sin_sq_add_cos_sq (φ / 2)
  simp only [rotQuat, Quat.normSq]
  linear_combination this + sin (φ / 2) ^ 2 * hk

theorem rotQuat_add {k : Vec3 ℝ} (hk : k.x ^ 2 + k.y ^ 2 + k.z ^ 2 = 1) (φ ψ : ℝ) :
    quat_mul (rotQuat k φ) (rotQuat k ψ) = rotQuat k (φ + ψ) := by
  have h1 : (φ + ψ) / 2 = φ / 2 + ψ / 2 := by ring
  ext <;> simp only [rotQuat, quat_mul, h1, cos_add, sin_add]
  · linear_combination (-sin (φ / 2) * sin (ψ / 2)) * hk
  all_goals ring

theorem rotQuat_inv (k : Vec3 ℝ) (φ : ℝ) : quat_inv (rotQuat k φ) = rotQuat k (-φ) := by
  ext <;> simp [rotQuat, neg_div]

end maths
end RingLib
