import Mathlib.Analysis.Matrix.Spectrum
import Mathlib.Data.Fin.Tuple.Sort
import Mathlib.Analysis.SpecialFunctions.Trigonometric.Angle
import Mathlib.LinearAlgebra.Matrix.NonsingularInverse
import Verif.Model.QuatAvg
import Verif.Props.Trig
import Verif.Props.SpatialRot

/-!
# The average of quaternions and angles about a constant axis (C88)
-/

namespace RingLib
open Real maths

/-! ## Specification -/

/-- What `jnp.linalg.eigh` promises for a symmetric matrix: ascending eigenvalues, and orthonormal columns that are
eigenvectors. -/
structure IsEigh (M : Matrix (Fin 4) (Fin 4) ℝ) (r : (Fin 4 → ℝ) × Matrix (Fin 4) (Fin 4) ℝ) : Prop where
  ascending : Monotone r.1
  orthonormal : r.2.transpose * r.2 = 1
  eigen : M * r.2 = r.2 * Matrix.diagonal r.1

/-- The squared Frobenius distance of two matrices. -/
def Mat3.distSq (a b : Mat3 ℝ) : ℝ :=
  (a.a00 - b.a00) ^ 2 + (a.a01 - b.a01) ^ 2 + (a.a02 - b.a02) ^ 2 +
  (a.a10 - b.a10) ^ 2 + (a.a11 - b.a11) ^ 2 + (a.a12 - b.a12) ^ 2 +
  (a.a20 - b.a20) ^ 2 + (a.a21 - b.a21) ^ 2 + (a.a22 - b.a22) ^ 2

/-- The sum of the squared distances of a rotation to given ones. -/
noncomputable def rotationSpread (qs : List (Quat ℝ)) (p : Quat ℝ) : ℝ :=
  (qs.map fun q => (quat_to_3x3 p).distSq (quat_to_3x3 q)).sum

/-- there is a function as promised -/
theorem eigh_exists : ∃ eigh : Matrix (Fin 4) (Fin 4) ℝ → (Fin 4 → ℝ) × Matrix (Fin 4) (Fin 4) ℝ,
    ∀ M, M.IsSymm → IsEigh M (eigh M) := by
  classical
  suffices h : ∀ M : Matrix (Fin 4) (Fin 4) ℝ, ∃ r, M.IsSymm → IsEigh M r from
    ⟨fun M => (h M).choose, fun M => (h M).choose_spec⟩
  intro M
  by_cases hs : M.IsSymm
  swap
  · exact ⟨(0, 0), fun h => absurd h hs⟩
  have hH : M.IsHermitian := by
    rw [Matrix.IsHermitian, Matrix.conjTranspose_eq_transpose_of_trivial]; exact hs
  set U : Matrix (Fin 4) (Fin 4) ℝ := (hH.eigenvectorUnitary : Matrix (Fin 4) (Fin 4) ℝ)
  set σ := Tuple.sort hH.eigenvalues
  have hU : U.transpose * U = 1 := by
    have := (Matrix.mem_unitaryGroup_iff').1 hH.eigenvectorUnitary.2
    rwa [Matrix.star_eq_conjTranspose, Matrix.conjTranspose_eq_transpose_of_trivial] at this
  have hMU : ∀ i j, (M * U) i j = U i j * hH.eigenvalues j := fun i j => by
    have := congrFun (hH.mulVec_eigenvectorBasis j) i
    simp only [Pi.smul_apply, smul_eq_mul] at this
    rw [mul_comm]
    exact this
  refine ⟨(hH.eigenvalues ∘ σ, U.submatrix id σ), fun _ => ⟨Tuple.monotone_sort hH.eigenvalues, ?_, ?_⟩⟩
  · ext i j
    have := congrFun (congrFun hU (σ i)) (σ j)
    simp only [Matrix.mul_apply, Matrix.transpose_apply, Matrix.submatrix_apply, id, Matrix.one_apply,
      EmbeddingLike.apply_eq_iff_eq] at this ⊢
    exact this
  · ext i j
    rw [Matrix.mul_diagonal]
    have := hMU i (σ j)
    simpa [Matrix.mul_apply] using this

/-! ## The average -/

/-- the inner product of quaternions as four-dimensional vectors -/
theorem distSq_eq {p q : Quat ℝ} (hp : p.IsUnit) (hq : q.IsUnit) :
    (quat_to_3x3 p).distSq (quat_to_3x3 q) =
      8 * (1 - (p.w * q.w + p.x * q.x + p.y * q.y + p.z * q.z) ^ 2) := by
  have h1 : p.w*p.w + p.x*p.x + p.y*p.y + p.z*p.z = 1 := hp
  have h2 : q.w*q.w + q.x*q.x + q.y*q.y + q.z*q.z = 1 := hq
  rw [to3x3_quadratic hp, to3x3_quadratic hq]
  simp only [Mat3.distSq]
  linear_combination (3 * (p.w*p.w + p.x*p.x + p.y*p.y + p.z*p.z + 1) +
    2 * (q.w*q.w + q.x*q.x + q.y*q.y + q.z*q.z)) * h1 +
    (3 * (q.w*q.w + q.x*q.x + q.y*q.y + q.z*q.z + 1) + 2) * h2

theorem quadratic_form (qs : List (Quat ℝ)) (x : Fin 4 → ℝ) :
    ∑ j, ∑ k, x j * outerSum qs j k * x k =
      (qs.map fun q => (x 0 * q.w + x 1 * q.x + x 2 * q.y + x 3 * q.z) ^ 2).sum := by
  induction qs with
  | nil => simp [outerSum]
  | cons q qs ih =>
    rw [List.map_cons, List.sum_cons, ← ih]
    simp only [outerSum, List.map_cons, List.sum_cons, Fin.sum_univ_four, quatComp]
    simp
    ring

theorem outerSum_symm (qs : List (Quat ℝ)) : (outerSum qs).IsSymm := by
  ext j k
  simp only [Matrix.transpose_apply, outerSum]
  congr 2
  funext q
  ring

/-- The last eigenvector has unit length and the greatest quadratic form of all unit vectors. -/
theorem eigh_last {M : Matrix (Fin 4) (Fin 4) ℝ} {r : (Fin 4 → ℝ) × Matrix (Fin 4) (Fin 4) ℝ} (h : IsEigh M r) :
    ∑ i, r.2 i 3 * r.2 i 3 = 1 ∧
    ∀ x : Fin 4 → ℝ, ∑ i, x i * x i = 1 →
      ∑ j, ∑ k, x j * M j k * x k ≤ ∑ j, ∑ k, r.2 j 3 * M j k * r.2 k 3 := by
  obtain ⟨w, V⟩ := r
  obtain ⟨hw, ho, he⟩ := h
  simp only at hw ho he ⊢
  have ho' : V * V.transpose = 1 := mul_eq_one_comm.1 ho
  have hM : M = V * Matrix.diagonal w * V.transpose := by
    rw [← he, Matrix.mul_assoc, ho', Matrix.mul_one]
  have hform : ∀ x : Fin 4 → ℝ, ∑ j, ∑ k, x j * M j k * x k = ∑ l, w l * (∑ i, x i * V i l) ^ 2 := by
    intro x
    have hjk : ∀ j k, M j k = ∑ l, V j l * w l * V k l := fun j k => by
      rw [hM]
      simp only [Matrix.mul_apply (M := V * Matrix.diagonal w), Matrix.mul_diagonal, Matrix.transpose_apply]
    simp only [hjk, Fin.sum_univ_four]
    ring
  have hnorm : ∀ x : Fin 4 → ℝ, ∑ l, (∑ i, x i * V i l) ^ 2 = ∑ i, x i * x i := by
    intro x
    have hrow : ∀ i k : Fin 4, ∑ l, V i l * V k l = if i = k then 1 else 0 := fun i k => by
      have := congrFun (congrFun ho' i) k
      simpa [Matrix.mul_apply, Matrix.one_apply] using this
    have : ∑ l, (∑ i, x i * V i l) ^ 2 = ∑ i, ∑ k, x i * x k * ∑ l, V i l * V k l := by
      simp only [Fin.sum_univ_four]
      ring
    rw [this]
    simp [hrow]
  have hcol : ∀ l m : Fin 4, ∑ i, V i l * V i m = if l = m then 1 else 0 := fun l m => by
    have := congrFun (congrFun ho l) m
    simpa [Matrix.mul_apply, Matrix.one_apply] using this
  refine ⟨by simpa using hcol 3 3, fun x hx => ?_⟩
  rw [hform, hform]
  have h3 : ∑ l, w l * (∑ i, V i 3 * V i l) ^ 2 = w 3 := by
    simp [hcol]
  rw [h3]
  calc ∑ l, w l * (∑ i, x i * V i l) ^ 2 ≤ ∑ l, w 3 * (∑ i, x i * V i l) ^ 2 :=
        Finset.sum_le_sum fun l _ => mul_le_mul_of_nonneg_right (hw (Fin.le_last l)) (sq_nonneg _)
    _ = w 3 := by rw [← Finset.mul_sum, hnorm, hx, mul_one]

/-- C88: `quat_avg` of unit quaternions is a unit quaternion, and no rotation has a smaller sum of squared
distances to the given ones. -/
theorem C88_avg {eigh : Matrix (Fin 4) (Fin 4) ℝ → (Fin 4 → ℝ) × Matrix (Fin 4) (Fin 4) ℝ}
    (he : ∀ M, M.IsSymm → IsEigh M (eigh M)) {qs : List (Quat ℝ)} (hq : ∀ q ∈ qs, q.IsUnit) :
    (quat_avg eigh qs).IsUnit ∧
    ∀ p : Quat ℝ, p.IsUnit → rotationSpread qs (quat_avg eigh qs) ≤ rotationSpread qs p := by
  obtain ⟨h1, h2⟩ := eigh_last (he _ (outerSum_symm qs))
  have hu : (quat_avg eigh qs).IsUnit := by
    rw [Fin.sum_univ_four] at h1
    exact h1
  refine ⟨hu, fun p hp => ?_⟩
  have hsp : ∀ p : Quat ℝ, p.IsUnit → rotationSpread qs p =
      8 * qs.length - 8 * (qs.map fun q => (p.w * q.w + p.x * q.x + p.y * q.y + p.z * q.z) ^ 2).sum := by
    intro p hp
    unfold rotationSpread
    clear h1 h2 hu
    induction qs with
    | nil => simp
    | cons q qs ih =>
      rw [List.map_cons, List.sum_cons, ih fun q' h' => hq q' (List.mem_cons_of_mem _ h'),
        distSq_eq hp (hq q List.mem_cons_self)]
      simp only [List.map_cons, List.sum_cons, List.length_cons]
      push_cast
      ring
  rw [hsp _ hu, hsp _ hp]
  have := h2 (quatComp p) (by
    have h : p.w*p.w + p.x*p.x + p.y*p.y + p.z*p.z = 1 := hp
    simpa [Fin.sum_univ_four, quatComp] using h)
  rw [quadratic_form, quadratic_form] at this
  simp only [quatComp, Matrix.cons_val] at this
  simp only [quat_avg]
  linarith

/-- C88: neither the signs nor the order of the quaternions matter. -/
theorem C88_avg_sign (eigh : Matrix (Fin 4) (Fin 4) ℝ → (Fin 4 → ℝ) × Matrix (Fin 4) (Fin 4) ℝ)
    {qs qs' : List (Quat ℝ)} :
    (List.Forall₂ (fun p q => p = q ∨ p = -q) qs qs' → quat_avg eigh qs = quat_avg eigh qs') ∧
    (qs.Perm qs' → quat_avg eigh qs = quat_avg eigh qs') := by
  constructor
  · intro h
    have : outerSum qs = outerSum qs' := by
      ext j k
      unfold outerSum
      induction h with
      | nil => rfl
      | cons h _ ih =>
        rw [List.map_cons, List.map_cons, List.sum_cons, List.sum_cons, ih]
        rcases h with rfl | rfl
        · rfl
        · congr 1
          fin_cases j <;> fin_cases k <;> simp [quatComp]
    simp only [quat_avg, this]
  · intro h
    have : outerSum qs = outerSum qs' := by
      ext j k
      exact (h.map _).sum_eq
    simp only [quat_avg, this]

theorem four_zero {a b c d : ℝ} (h : a ^ 2 + b ^ 2 + c ^ 2 + d ^ 2 ≤ 0) : a = 0 ∧ b = 0 ∧ c = 0 ∧ d = 0 := by
  have ha := sq_nonneg a
  have hb := sq_nonneg b
  have hc := sq_nonneg c
  have hd := sq_nonneg d
  exact ⟨pow_eq_zero_iff two_ne_zero |>.1 (by linarith), pow_eq_zero_iff two_ne_zero |>.1 (by linarith),
    pow_eq_zero_iff two_ne_zero |>.1 (by linarith), pow_eq_zero_iff two_ne_zero |>.1 (by linarith)⟩

/-- C88: if all quaternions describe the same rotation, this is the average, for one quaternion in particular. -/
theorem C88_avg_equal {eigh : Matrix (Fin 4) (Fin 4) ℝ → (Fin 4 → ℝ) × Matrix (Fin 4) (Fin 4) ℝ}
    (he : ∀ M, M.IsSymm → IsEigh M (eigh M)) {q : Quat ℝ} (hq : q.IsUnit) {qs : List (Quat ℝ)} (hne : qs ≠ [])
    (hqs : ∀ p ∈ qs, p = q ∨ p = -q) : quat_avg eigh qs = q ∨ quat_avg eigh qs = -q := by
  have hn : ∀ p ∈ qs, p.IsUnit := by
    intro p hp
    rcases hqs p hp with rfl | rfl
    · exact hq
    · simpa [Quat.IsUnit] using hq
  obtain ⟨hu, hmin⟩ := C88_avg he hn
  have h0 := hmin q hq
  set a := quat_avg eigh qs
  have hd : ∀ p ∈ qs, ∀ b : Quat ℝ, b.IsUnit → (quat_to_3x3 b).distSq (quat_to_3x3 p) =
      8 * (1 - (b.w * q.w + b.x * q.x + b.y * q.y + b.z * q.z) ^ 2) := by
    intro p hp b hb
    rw [distSq_eq hb (hn p hp)]
    rcases hqs p hp with rfl | rfl
    · rfl
    · simp only [Quat.neg_w, Quat.neg_x, Quat.neg_y, Quat.neg_z]; ring
  have hsum : ∀ b : Quat ℝ, b.IsUnit → rotationSpread qs b =
      qs.length * (8 * (1 - (b.w * q.w + b.x * q.x + b.y * q.y + b.z * q.z) ^ 2)) := by
    intro b hb
    unfold rotationSpread
    rw [List.map_congr_left fun p hp => hd p hp b hb, List.map_const', List.sum_replicate, nsmul_eq_mul]
  rw [hsum a hu, hsum q hq] at h0
  have h1 : q.w*q.w + q.x*q.x + q.y*q.y + q.z*q.z = 1 := hq
  have h2 : a.w*a.w + a.x*a.x + a.y*a.y + a.z*a.z = 1 := hu
  rw [h1] at h0
  have hlen : (0 : ℝ) < qs.length := by
    exact_mod_cast List.length_pos_iff.2 hne
  have h3 : 1 ≤ (a.w * q.w + a.x * q.x + a.y * q.y + a.z * q.z) ^ 2 := by
    nlinarith
  set d := a.w * q.w + a.x * q.x + a.y * q.y + a.z * q.z with hdd
  rcases (one_le_sq_iff_one_le_abs d).1 h3 |> le_abs.1 with h | h
  · left
    have e : (a.w - q.w)^2 + (a.x - q.x)^2 + (a.y - q.y)^2 + (a.z - q.z)^2 ≤ 0 := by
      have : (a.w - q.w)^2 + (a.x - q.x)^2 + (a.y - q.y)^2 + (a.z - q.z)^2 = 2 - 2 * d := by
        rw [hdd]; linear_combination h1 + h2
      linarith
    obtain ⟨e1, e2, e3, e4⟩ := four_zero e
    ext <;> linarith
  · right
    have e : (a.w + q.w)^2 + (a.x + q.x)^2 + (a.y + q.y)^2 + (a.z + q.z)^2 ≤ 0 := by
      have : (a.w + q.w)^2 + (a.x + q.x)^2 + (a.y + q.y)^2 + (a.z + q.z)^2 = 2 + 2 * d := by
        rw [hdd]; linear_combination h1 + h2
      linarith
    obtain ⟨e1, e2, e3, e4⟩ := four_zero e
    ext <;> simp only [Quat.neg_w, Quat.neg_x, Quat.neg_y, Quat.neg_z] <;> linarith

/-- two different rotations; a function as promised exists -/
example : ∃ eigh : Matrix (Fin 4) (Fin 4) ℝ → (Fin 4 → ℝ) × Matrix (Fin 4) (Fin 4) ℝ,
    (∀ M, M.IsSymm → IsEigh M (eigh M)) ∧
    (∀ q ∈ [(⟨1, 0, 0, 0⟩ : Quat ℝ), ⟨0.6, 0.8, 0, 0⟩], q.IsUnit) :=
  ⟨_, eigh_exists.choose_spec, by
    intro q hq
    simp only [List.mem_cons, List.not_mem_nil, or_false] at hq
    rcases hq with rfl | rfl <;> norm_num [Quat.IsUnit]⟩

/-! ## Angles about a constant axis -/

/-- The sign with which the axis of a quaternion is read. -/
noncomputable def axisSign (φ : ℝ) : ℝ := if 0 < sin (φ / 2) then 1 else -1

theorem axisSign_cases (φ : ℝ) : axisSign φ = 1 ∨ axisSign φ = -1 := by
  unfold axisSign
  split <;> simp

theorem rotQuat_axis_angle {k : Vec3 ℝ} (hk : k.x ^ 2 + k.y ^ 2 + k.z ^ 2 = 1) {φ : ℝ}
    (h : ¬ Negligible (rotQuat k φ)) :
    safe_normalize (rotQuat k φ).vec = .smul (axisSign φ) k ∧
    ∃ m : ℤ, quat_angle (rotQuat k φ) = axisSign φ * φ + m * (2 * π) := by
  have hna : ¬ allclose0 (rotQuat k φ).vec := h
  have hpos := norm3_pos hna
  have hn : norm3 (rotQuat k φ).vec = |sin (φ / 2)| := by
    unfold norm3
    rw [← sqrt_sq_eq_abs]
    congr 1
    simp only [rotQuat, Quat.vec]
    linear_combination sin (φ / 2) ^ 2 * hk
  have hs : axisSign φ * |sin (φ / 2)| = sin (φ / 2) := by
    unfold axisSign
    split
    · rename_i hp; rw [abs_of_pos hp, one_mul]
    · rename_i hp; rw [abs_of_nonpos (not_lt.1 hp)]; ring
  have hs2 : |sin (φ / 2)| = sin (axisSign φ * φ / 2) ∧ cos (φ / 2) = cos (axisSign φ * φ / 2) := by
    rcases axisSign_cases φ with e | e <;> rw [e] at hs ⊢
    · rw [one_mul] at hs ⊢; exact ⟨hs, rfl⟩
    · rw [neg_one_mul, neg_div, sin_neg, cos_neg]; exact ⟨by linarith, rfl⟩
  constructor
  · rw [safe_normalize_of hna, hn]
    rw [hn] at hpos
    ext <;> simp only [rotQuat, Quat.vec, Vec3.smul] <;> rw [div_eq_iff hpos.ne']
    · linear_combination -k.x * hs
    · linear_combination -k.y * hs
    · linear_combination -k.z * hs
  · unfold quat_angle
    rw [safe_norm_of hna, hn]
    obtain ⟨m, hm⟩ := wrap_congr (2 * atan2 |sin (φ / 2)| (rotQuat k φ).w)
    have hα : ∃ n : ℤ, atan2 |sin (φ / 2)| (rotQuat k φ).w - axisSign φ * φ / 2 = 2 * π * n := by
      rw [← Real.Angle.angle_eq_iff_two_pi_dvd_sub]
      have hsum : cos (φ / 2) ^ 2 + |sin (φ / 2)| ^ 2 = 1 := by
        rw [sq_abs]; exact cos_sq_add_sin_sq _
      apply Real.Angle.cos_sin_inj
      · show cos (atan2 _ (cos (φ / 2))) = _
        rw [cos_atan2 (by rw [hsum]; norm_num), hsum, sqrt_one, div_one, hs2.2]
      · show sin (atan2 _ (cos (φ / 2))) = _
        rw [sin_atan2, hsum, sqrt_one, div_one, hs2.1]
    obtain ⟨n, hn'⟩ := hα
    refine ⟨m + 2 * n, ?_⟩
    rw [hm]
    push_cast
    linear_combination 2 * hn'

theorem angleAlong_sign {k : Vec3 ℝ} (hk : k.x ^ 2 + k.y ^ 2 + k.z ^ 2 = 1) {ε₀ ε : ℝ} (h0 : ε₀ = 1 ∨ ε₀ = -1)
    (h : ε = 1 ∨ ε = -1) :
    norm3 (.smul ε₀ k - .smul ε k) > norm3 (.smul ε₀ k + .smul ε k) ↔ ε = -ε₀ := by
  have h1 : norm3 (.smul ε₀ k - .smul ε k) = |ε₀ - ε| := by
    unfold norm3
    rw [← sqrt_sq_eq_abs]
    congr 1
    simp only [Vec3.sub_x, Vec3.sub_y, Vec3.sub_z, Vec3.smul]
    linear_combination (ε₀ - ε) ^ 2 * hk
  have h2 : norm3 (.smul ε₀ k + .smul ε k) = |ε₀ + ε| := by
    unfold norm3
    rw [← sqrt_sq_eq_abs]
    congr 1
    simp only [Vec3.add_x, Vec3.add_y, Vec3.add_z, Vec3.smul]
    linear_combination (ε₀ + ε) ^ 2 * hk
  rw [h1, h2]
  rcases h0 with rfl | rfl <;> rcases h with rfl | rfl <;> norm_num

/-- C88: for rotations about a common axis, the first of which is not negligible, the angles are those of the
rotations about the axis of the first one, up to full turns; where a rotation is negligible the angle is
zero. -/
theorem C88_constant_axis {k : Vec3 ℝ} (hk : k.x ^ 2 + k.y ^ 2 + k.z ^ 2 = 1) (φ₀ : ℝ) (φs : List ℝ)
    (h0 : ¬ Negligible (rotQuat k φ₀)) :
    ∃ σ : ℝ, (σ = 1 ∨ σ = -1) ∧ safe_normalize (rotQuat k φ₀).vec = .smul σ k ∧
      List.Forall₂ (fun φ r => (Negligible (rotQuat k φ) → r = 0) ∧
          (¬ Negligible (rotQuat k φ) → ∃ m : ℤ, r = σ * φ + m * (2 * π)) ∧ |r| ≤ π)
        (φ₀ :: φs) (quat_angle_constantAxisOverTime ((φ₀ :: φs).map (rotQuat k))) := by
  refine ⟨axisSign φ₀, axisSign_cases φ₀, (rotQuat_axis_angle hk h0).1, ?_⟩
  have hconv := (rotQuat_axis_angle hk h0).1
  rw [List.map_cons]
  simp only [quat_angle_constantAxisOverTime]
  rw [hconv, ← List.map_cons, List.map_map, List.forall₂_map_right_iff, List.forall₂_same]
  intro φ _
  simp only [Function.comp]
  have habs : |angleAlong (.smul (axisSign φ₀) k) (rotQuat k φ)| ≤ π := by
    have h1 := wrap_mem (2 * atan2 (safe_norm (rotQuat k φ).vec) (rotQuat k φ).w)
    have h2 : |quat_angle (rotQuat k φ)| ≤ π := abs_le.2 ⟨h1.1, h1.2.le⟩
    unfold angleAlong
    dsimp only
    split
    · rwa [abs_neg]
    · exact h2
  refine ⟨fun hn => ?_, fun hn => ?_, habs⟩
  · have := quat_angle_negligible (rotQuat_unit hk φ) hn
    simp [angleAlong, this]
  · obtain ⟨hax, m, hm⟩ := rotQuat_axis_angle hk hn
    unfold angleAlong
    dsimp only
    rw [hax, hm]
    simp only [angleAlong_sign hk (axisSign_cases φ₀) (axisSign_cases φ)]
    split
    · rename_i e
      exact ⟨-m, by rw [e]; push_cast; ring⟩
    · rename_i e
      refine ⟨m, ?_⟩
      rcases axisSign_cases φ₀ with e1 | e1 <;> rcases axisSign_cases φ with e2 | e2 <;> rw [e1, e2] at e ⊢ <;>
        norm_num at e

/-- C88: if the first rotation is the identity the sign is lost: opposite angles give the same value. -/
theorem C88_constant_axis_lost {k : Vec3 ℝ} (hk : k.x ^ 2 + k.y ^ 2 + k.z ^ 2 = 1) (φ : ℝ) :
    ∃ r, quat_angle_constantAxisOverTime ([0, φ, -φ].map (rotQuat k)) = [0, r, r] := by
  have h0 : Negligible (rotQuat k 0) := by
    refine ⟨?_, ?_, ?_⟩ <;> simp [rotQuat] <;> norm_num
  have hz := safe_normalize_zero (v := (rotQuat k 0).vec) h0
  have hno : ∀ v : Vec3 ℝ, ¬ norm3 (0 - v) > norm3 (0 + v) := fun v => by
    have : norm3 (0 - v) = norm3 (0 + v) := by
      unfold norm3
      congr 1
      simp
    rw [this]
    exact lt_irrefl _
  simp only [List.map_cons, List.map_nil, quat_angle_constantAxisOverTime, hz, angleAlong, hno, if_false]
  refine ⟨quat_angle (rotQuat k φ), ?_⟩
  rw [quat_angle_negligible (rotQuat_unit hk 0) h0]
  have : quat_angle (rotQuat k (-φ)) = quat_angle (rotQuat k φ) := by
    have hv : (rotQuat k (-φ)).vec = -(rotQuat k φ).vec := by
      ext <;> simp [rotQuat, neg_div]
    have hw : (rotQuat k (-φ)).w = (rotQuat k φ).w := by simp [rotQuat, neg_div]
    unfold quat_angle
    rw [hv, hw]
    congr 3
    unfold safe_norm
    congr 1 <;> simp [norm3, allclose0, isclose0]
  rw [this]

/-- C88: so there is no sign with which the angles are those of the rotations, for example for no rotation and
quarter turns in the two directions. -/
theorem C88_constant_axis_fails {k : Vec3 ℝ} (hk : k.x ^ 2 + k.y ^ 2 + k.z ^ 2 = 1) :
    ¬ ∃ σ : ℝ, (σ = 1 ∨ σ = -1) ∧
      List.Forall₂ (fun φ r => ∃ m : ℤ, r = σ * φ + m * (2 * π)) [0, π / 2, -(π / 2)]
        (quat_angle_constantAxisOverTime ([0, π / 2, -(π / 2)].map (rotQuat k))) := by
  rintro ⟨σ, hσ, h⟩
  obtain ⟨r, hr⟩ := C88_constant_axis_lost hk (π / 2)
  rw [hr] at h
  cases h with
  | cons _ h =>
    cases h with
    | cons h1 h =>
      cases h with
      | cons h2 _ =>
        obtain ⟨m, hm⟩ := h1
        obtain ⟨n, hn⟩ := h2
        have e : σ * π = (n - m) * (2 * π) := by linarith
        have e2 : σ = (n - m) * 2 := by
          have := pi_pos
          exact mul_right_cancel₀ this.ne' (by linarith)
        rcases hσ with rfl | rfl
        · have : (1 : ℤ) = (n - m) * 2 := by exact_mod_cast e2
          omega
        · have : (-1 : ℤ) = (n - m) * 2 := by exact_mod_cast e2
          omega

/-- a quarter turn about the first axis is not negligible -/
example : ¬ Negligible (rotQuat ⟨1, 0, 0⟩ (π / 2)) := by
  rintro ⟨h, -⟩
  simp only [rotQuat, mul_one] at h
  rw [show π / 2 / 2 = π / 4 by ring, sin_pi_div_four, abs_of_pos (by positivity)] at h
  have : (1 : ℝ) ≤ √2 := by rw [one_le_sqrt]; norm_num
  norm_num at h
  linarith

end RingLib
