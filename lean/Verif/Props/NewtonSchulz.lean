import Mathlib.Analysis.Matrix.Normed
import Mathlib.Analysis.SpecificLimits.Basic
import Verif.Model.Dynamics

/-! # Property C29: approximate inversion of the mass matrix

The residual of a guess `x` for the inverse of `a` is `1 - a * x`, measured with the Frobenius
norm.

* While the residual of the given guess is below one, every iteration squares it
  (`C29_quadratic`, `C29_monotone_partial`, `C29_limit`).
* The monotonicity claim for *all* starting guesses is false (`C29_monotone_fails`,
  `C29_converges_fails`): when the guess is replaced, the code goes on with the residual of the guess
  it has just thrown away. What is missing in `C29_monotone_partial` is the case of a replaced guess.
-/

namespace RingLib
open System

section
variable {n : Nat}

attribute [local instance] Matrix.frobeniusNormedAddCommGroup Matrix.frobeniusNormedRing

theorem frob_eq_norm (M : Matrix (Fin n) (Fin n) ℝ) : frob M = ‖M‖ := by
  rw [Matrix.frobenius_norm_def, ← Real.sqrt_eq_rpow]
  unfold frob
  congr 1
  apply Finset.sum_congr rfl
  intro i _
  apply Finset.sum_congr rfl
  intro j _
  rw [Real.rpow_two, Real.norm_eq_abs, sq_abs]

theorem frob_mul (M N : Matrix (Fin n) (Fin n) ℝ) : frob (M * N) ≤ frob M * frob N := by
  rw [frob_eq_norm, frob_eq_norm, frob_eq_norm]
  exact norm_mul_le M N

theorem frob_nonneg (M : Matrix (Fin n) (Fin n) ℝ) : 0 ≤ frob M := Real.sqrt_nonneg _

theorem frob_zero_iff (M : Matrix (Fin n) (Fin n) ℝ) : frob M = 0 ↔ M = 0 := by
  rw [frob_eq_norm]; exact norm_eq_zero
end

variable {n : Nat}

theorem frob_sq_le (M : Matrix (Fin n) (Fin n) ℝ) : frob (M ^ 2) ≤ frob M ^ 2 := by
  rw [pow_two, pow_two]; exact frob_mul M M

theorem residual_step (a x : Matrix (Fin n) (Fin n) ℝ) :
    1 - a * (x * (1 + (1 - a * x))) = (1 - a * x) ^ 2 := by
  noncomm_ring

/-- the carry when nothing is ever rejected -/
theorem iterate_good {a x : Matrix (Fin n) (Fin n) ℝ} (h : frob (1 - a * x) < 1) (k : Nat) :
    let c := (inv_approximate_body a)^[k] (x, 1 - a * x, 1)
    c.2.1 = 1 - a * c.1 ∧ c.2.1 = (1 - a * x) ^ 2 ^ k ∧ frob c.2.1 ≤ frob (1 - a * x) ^ 2 ^ k ∧
      (k = 0 ∧ c.2.2 = 1 ∨ 0 < k ∧ c.2.2 = frob c.2.1) := by
  induction k with
  | zero => simp
  | succ k ih =>
    simp only [Function.iterate_succ_apply']
    obtain ⟨h1, h2, h3, h4⟩ := ih
    set c := (inv_approximate_body a)^[k] (x, 1 - a * x, 1)
    have hr : 1 - a * (c.1 * (1 + c.2.1)) = c.2.1 ^ 2 := by rw [h1]; exact residual_step a c.1
    have hlt : frob c.2.1 < 1 := by
      apply lt_of_le_of_lt h3
      exact pow_lt_one₀ (frob_nonneg _) h (by positivity)
    have hsq : frob (c.2.1 ^ 2) ≤ frob c.2.1 ^ 2 := frob_sq_le _
    have hnn := frob_nonneg c.2.1
    have hpow : c.2.1 ^ 2 = (1 - a * x) ^ 2 ^ (k + 1) := by rw [h2, ← pow_mul, pow_succ]
    have hbound : frob (c.2.1 ^ 2) ≤ frob (1 - a * x) ^ 2 ^ (k + 1) := by
      apply hsq.trans
      rw [pow_succ 2 k, pow_mul]
      exact pow_le_pow_left₀ hnn h3 2
    have hx : (if frob (c.2.1 ^ 2) < c.2.2 then c.1 * (1 + c.2.1) else c.1) = c.1 * (1 + c.2.1) := by
      split
      · rfl
      · rename_i hge
        have hz : frob c.2.1 = 0 := by
          rcases h4 with ⟨_, e⟩ | ⟨_, e⟩
          · rw [e] at hge
            exfalso
            apply hge
            nlinarith
          · rw [e] at hge
            push Not at hge
            nlinarith
        rw [(frob_zero_iff _).1 hz, add_zero, mul_one]
    unfold inv_approximate_body
    simp only [hr, hx]
    exact ⟨trivial, hpow, hbound, Or.inr ⟨by omega, trivial⟩⟩

theorem start_good {a x : Matrix (Fin n) (Fin n) ℝ} (h : frob (1 - a * x) < 1) :
    inv_approximate_start a x = x := if_neg (not_lt.2 h.le)

/-- C29: from a guess with residual below one, the residual is squared in every iteration. -/
theorem C29_quadratic {a x : Matrix (Fin n) (Fin n) ℝ} (h : frob (1 - a * x) < 1) (k : Nat) :
    1 - a * _inv_approximate a x k = (1 - a * x) ^ 2 ^ k ∧
      frob (1 - a * _inv_approximate a x k) ≤ frob (1 - a * x) ^ 2 ^ k ∧
      frob (1 - a * _inv_approximate a x (k + 1)) ≤ frob (1 - a * _inv_approximate a x k) ^ 2 := by
  unfold _inv_approximate
  rw [start_good h]
  obtain ⟨h1, h2, h3, _⟩ := iterate_good h k
  obtain ⟨g1, g2, _, _⟩ := iterate_good h (k + 1)
  rw [← h1, ← g1]
  refine ⟨h2, h3, ?_⟩
  rw [g2, h2, pow_succ 2 k, pow_mul]
  exact frob_sq_le _

/-- C29, monotonicity for guesses with residual below one: more iterations never hurt, and no
result is worse than the guess. -/
theorem C29_monotone_partial {a x : Matrix (Fin n) (Fin n) ℝ} (h : frob (1 - a * x) < 1) :
    (∀ k m, k ≤ m → frob (1 - a * _inv_approximate a x m) ≤ frob (1 - a * _inv_approximate a x k)) ∧
      ∀ k, frob (1 - a * _inv_approximate a x k) ≤ frob (1 - a * x) := by
  have step : ∀ k, frob (1 - a * _inv_approximate a x (k + 1)) ≤
      frob (1 - a * _inv_approximate a x k) := by
    intro k
    obtain ⟨_, h2, h3⟩ := C29_quadratic h k
    apply h3.trans
    have h4 : frob (1 - a * _inv_approximate a x k) ≤ 1 :=
      h2.trans (pow_le_one₀ (frob_nonneg _) h.le)
    have := frob_nonneg (1 - a * _inv_approximate a x k)
    nlinarith
  have mono : ∀ k m, k ≤ m → frob (1 - a * _inv_approximate a x m) ≤
      frob (1 - a * _inv_approximate a x k) := by
    intro k m hkm
    induction m, hkm using Nat.le_induction with
    | base => exact le_rfl
    | succ m _ ih => exact (step m).trans ih
  refine ⟨mono, fun k => ?_⟩
  have h0 : _inv_approximate a x 0 = x := by unfold _inv_approximate; rw [start_good h]; rfl
  have := mono 0 k (Nat.zero_le _)
  rwa [h0] at this

/-- C29: the results converge to the inverse of `a`. -/
theorem C29_limit {a x : Matrix (Fin n) (Fin n) ℝ} (h : frob (1 - a * x) < 1) :
    Filter.Tendsto (fun k => frob (1 - a * _inv_approximate a x k)) .atTop (nhds 0) := by
  apply squeeze_zero (fun _ => frob_nonneg _) (fun k => (C29_quadratic h k).2.1)
  have h1 := tendsto_pow_atTop_nhds_zero_of_lt_one (frob_nonneg (1 - a * x)) h
  exact h1.comp (tendsto_pow_atTop_atTop_of_one_lt (one_lt_two : (1 : Nat) < 2))

/-! ## a guess that is replaced -/

theorem mat1 (a b : Matrix (Fin 1) (Fin 1) ℝ) (h : a 0 0 = b 0 0) : a = b := by
  ext i j
  rw [Fin.eq_zero i, Fin.eq_zero j]
  exact h

/-- 1x1 matrix -/
def m1 (x : ℝ) : Matrix (Fin 1) (Fin 1) ℝ := fun _ _ => x

theorem frob_m1 (x : ℝ) : frob (m1 x) = |x| := by
  simp [frob, m1, Real.sqrt_sq_eq_abs]

theorem m1_mul (x y : ℝ) : m1 x * m1 y = m1 (x * y) := by
  apply mat1; simp [m1, Matrix.mul_apply]
theorem m1_add (x y : ℝ) : m1 x + m1 y = m1 (x + y) := rfl
theorem m1_sub (x y : ℝ) : m1 x - m1 y = m1 (x - y) := rfl
theorem m1_one : (1 : Matrix (Fin 1) (Fin 1) ℝ) = m1 1 := by apply mat1; simp [m1]

theorem body_m1 (a x r e : ℝ) : inv_approximate_body (m1 a) (m1 x, m1 r, e) =
    (if |1 - a * (x * (1 + r))| < e then m1 (x * (1 + r)) else m1 x,
      m1 (1 - a * (x * (1 + r))), |1 - a * (x * (1 + r))|) := by
  unfold inv_approximate_body
  simp only [m1_one, m1_add, m1_mul, m1_sub, frob_m1]

theorem start_m1 : inv_approximate_start (m1 10) (m1 1) = m1 (1 / 20) := by
  unfold inv_approximate_start
  rw [m1_one, m1_mul, m1_sub, frob_m1, if_pos (by norm_num)]
  apply mat1
  simp [m1, Matrix.trace, Matrix.mul_apply, Matrix.transpose]
  norm_num

/-- after two iterations, the residual grows threefold and changes its sign forever -/
theorem iterate_bad (k : Nat) : ∃ r : ℝ, 2 ≤ |r| ∧
    (inv_approximate_body (m1 10))^[k + 2] (m1 (1 / 20), m1 (-9), 1) =
      (m1 (3 / 10), m1 r, |r|) := by
  induction k with
  | zero =>
    refine ⟨-2, by norm_num, ?_⟩
    simp only [Function.iterate_succ_apply', Function.iterate_zero, id_eq]
    rw [body_m1, if_neg (by norm_num), body_m1, if_pos (by norm_num)]
    norm_num
  | succ k ih =>
    obtain ⟨r, hr, he⟩ := ih
    have h3 : |r| ≤ |1 - 10 * (3 / 10 * (1 + r))| := by
      have e : 1 - 10 * (3 / 10 * (1 + r)) = -(2 + 3 * r) := by ring
      rw [e, abs_neg]
      rcases abs_cases r with ⟨h1, _⟩ | ⟨h1, _⟩ <;>
        rcases abs_cases (2 + 3 * r) with ⟨h2, _⟩ | ⟨h2, _⟩ <;> linarith
    refine ⟨1 - 10 * (3 / 10 * (1 + r)), hr.trans h3, ?_⟩
    rw [show k + 1 + 2 = (k + 2) + 1 from rfl, Function.iterate_succ_apply', he, body_m1,
      if_neg (not_lt.2 h3)]

theorem inv_bad (k : Nat) : _inv_approximate (m1 10) (m1 1) (k + 2) = m1 (3 / 10) := by
  obtain ⟨r, _, he⟩ := iterate_bad k
  unfold _inv_approximate
  rw [start_m1, m1_one, m1_mul, m1_sub, show (1 : ℝ) - 10 * 1 = -9 by norm_num, he]

/-- The monotonicity claim of C29 is false: for the mass `10` and the guess `1` that
`forward_dynamics` uses, the guess which the code puts in its place has residual 1/2, but after two or
more iterations the residual is 2. -/
theorem C29_monotone_fails (k : Nat) :
    frob (1 - m1 10 * inv_approximate_start (m1 10) (m1 1)) = 1 / 2 ∧
      frob (1 - m1 10 * _inv_approximate (m1 10) (m1 1) (k + 2)) = 2 := by
  rw [start_m1, inv_bad, m1_one]
  simp only [m1_mul, m1_sub, frob_m1]
  norm_num

/-- The iteration does not approach the inverse of `10`: from the second iteration on the result is
`3/10`, three times too large. -/
theorem C29_converges_fails : ¬ Filter.Tendsto
    (fun k => frob (1 - m1 10 * _inv_approximate (m1 10) (m1 1) k)) .atTop (nhds 0) := by
  intro h
  have h2 := h.comp (Filter.tendsto_add_atTop_nat 2)
  have e : (fun k => frob (1 - m1 10 * _inv_approximate (m1 10) (m1 1) k)) ∘ (· + 2) =
      fun _ => 2 := by
    funext k
    exact (C29_monotone_fails k).2
  rw [e] at h2
  have := tendsto_nhds_unique h2 tendsto_const_nhds
  norm_num at this

/-- a guess with residual 1/2 -/
example (k : Nat) : frob (1 - m1 10 * _inv_approximate (m1 10) (m1 (1 / 20)) k) ≤
    (1 / 2) ^ 2 ^ k := by
  have h : frob (1 - m1 10 * m1 (1 / 20)) = 1 / 2 := by
    rw [m1_one, m1_mul, m1_sub, frob_m1]; norm_num
  have := (C29_quadratic (a := m1 10) (x := m1 (1 / 20)) (by rw [h]; norm_num) k).2.1
  rwa [h] at this

end RingLib
