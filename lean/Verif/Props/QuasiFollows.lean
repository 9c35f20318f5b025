import Verif.Props.QuasiPhysical
import Mathlib.Analysis.SpecificLimits.Normed

/-!
# C96: the IMU on a spring and motions that are not uniform

What drives the distance of the IMU to the motion is the second difference of the motion. If this vanishes, then so does
the distance; if it is bounded, then so is the distance, by a multiple that only depends on the sample time. On the
boundary `70 dt + 625 dt² = 4` the IMU oscillates forever around a uniform motion.
-/

namespace RingLib
namespace sensors
open Filter Topology

/-! ## Linear recurrences with a forcing term -/

/-- the response to an impulse -/
def impulse (t d : ℝ) : ℕ → ℝ
  | 0 => 0
  | 1 => 1
  | k + 2 => t * impulse t d (k + 1) - d * impulse t d k

theorem exists_rate {t d : ℝ} (h1 : d < 1) (h2 : t < 1 + d) (h3 : -(1 + d) < t) :
    ∃ r : ℝ, 0 < r ∧ r < 1 ∧ d < r ^ 2 ∧ t * r < r ^ 2 + d ∧ -(r ^ 2 + d) < t * r := by
  have c1 : ∀ᶠ r : ℝ in 𝓝 1, d < r ^ 2 :=
    (continuous_pow 2).continuousAt.eventually (lt_mem_nhds (by simpa using h1))
  have c2 : ∀ᶠ r : ℝ in 𝓝 1, 0 < r ^ 2 + d - t * r := by
    have : Continuous fun r : ℝ => r ^ 2 + d - t * r := by fun_prop
    exact this.continuousAt.eventually (lt_mem_nhds (by norm_num; linarith))
  have c3 : ∀ᶠ r : ℝ in 𝓝 1, 0 < r ^ 2 + d + t * r := by
    have : Continuous fun r : ℝ => r ^ 2 + d + t * r := by fun_prop
    exact this.continuousAt.eventually (lt_mem_nhds (by norm_num; linarith))
  have c4 : ∀ᶠ r : ℝ in 𝓝 1, 0 < r := lt_mem_nhds one_pos
  have := ((c1.and c2).and (c3.and c4)).filter_mono (nhdsWithin_le_nhds (s := Set.Iio 1))
  obtain ⟨r, ⟨⟨a1, a2⟩, a3, a4⟩, a5⟩ := (this.and self_mem_nhdsWithin).exists
  exact ⟨r, a4, a5, a1, by linarith, by linarith⟩

/-- the response to an impulse decays geometrically -/
theorem impulse_decays {t d : ℝ} (h1 : d < 1) (h2 : t < 1 + d) (h3 : -(1 + d) < t) :
    ∃ r C : ℝ, 0 < r ∧ r < 1 ∧ 0 ≤ C ∧ ∀ k, |impulse t d k| ≤ C * r ^ k := by
  obtain ⟨r, r0, r1, a1, a2, a3⟩ := exists_rate h1 h2 h3
  have hr2 : 0 < r ^ 2 := pow_pos r0 2
  have lim : Tendsto (fun k => impulse t d k / r ^ k) atTop (𝓝 0) := by
    apply recurrence_tendsto (t := t / r) (d := d / r ^ 2)
    · rw [div_lt_one hr2]; exact a1
    · have : 1 + d / r ^ 2 - t / r = (r ^ 2 + d - t * r) / r ^ 2 := by field_simp
      have := this ▸ div_pos (show 0 < r ^ 2 + d - t * r by linarith) hr2
      linarith
    · have : 1 + d / r ^ 2 + t / r = (r ^ 2 + d + t * r) / r ^ 2 := by field_simp
      have := this ▸ div_pos (show 0 < r ^ 2 + d + t * r by linarith) hr2
      linarith
    · intro k
      simp only [impulse]
      have : r ≠ 0 := r0.ne'
      field_simp
      ring
  obtain ⟨C, hC⟩ := (isBounded_iff_forall_norm_le.1 (Metric.isBounded_range_of_tendsto _ lim))
  refine ⟨r, max C 0, r0, r1, le_max_right _ _, fun k => ?_⟩
  have := hC _ ⟨k, rfl⟩
  rw [Real.norm_eq_abs, abs_div, abs_of_pos (pow_pos r0 k), div_le_iff₀ (pow_pos r0 k)] at this
  exact this.trans (mul_le_mul_of_nonneg_right (le_max_left _ _) (pow_pos r0 k).le)

/-- the solution with a forcing term from rest -/
theorem forced_eq {t d : ℝ} {y g : ℕ → ℝ} (h0 : y 0 = 0) (h1 : y 1 = 0)
    (hy : ∀ k, y (k + 2) = t * y (k + 1) - d * y k + g k) (k : ℕ) :
    y (k + 1) = ∑ j ∈ Finset.range k, impulse t d (k - j) * g j ∧
      y k = ∑ j ∈ Finset.range k, impulse t d (k - 1 - j) * g j := by
  induction k with
  | zero => simp [h0, h1]
  | succ k ih =>
    obtain ⟨i1, i2⟩ := ih
    constructor
    · rw [hy k, i1, i2, Finset.sum_range_succ, Finset.mul_sum, Finset.mul_sum, ← Finset.sum_sub_distrib]
      rw [show k + 1 - k = 1 by omega]
      simp only [impulse, one_mul]
      congr 1
      apply Finset.sum_congr rfl
      intro j hj
      have hj := Finset.mem_range.1 hj
      obtain ⟨m, hm⟩ : ∃ m, k = j + 1 + m := ⟨k - (j + 1), by omega⟩
      rw [show k - j = m + 1 by omega, show k - 1 - j = m by omega, show k + 1 - j = m + 2 by omega]
      simp only [impulse]
      ring
    · rw [i1, Finset.sum_range_succ, show k + 1 - 1 - k = 0 by omega]
      simp [impulse]

/-- the solution without forcing term with given start -/
def free (t d a b : ℝ) : ℕ → ℝ
  | 0 => a
  | 1 => b
  | k + 2 => t * free t d a b (k + 1) - d * free t d a b k

/-- a bounded forcing term moves the solution by a bounded amount -/
theorem forced_bound {t d : ℝ} (h1 : d < 1) (h2 : t < 1 + d) (h3 : -(1 + d) < t) :
    ∃ B : ℝ, 0 ≤ B ∧ ∀ (y g : ℕ → ℝ) (G : ℝ), (∀ k, y (k + 2) = t * y (k + 1) - d * y k + g k) →
      (∀ k, |g k| ≤ G) → ∀ k, |y k - free t d (y 0) (y 1) k| ≤ B * G := by
  obtain ⟨r, C, r0, r1, hC, hb⟩ := impulse_decays h1 h2 h3
  have hr : 0 < 1 - r := by linarith
  refine ⟨C / (1 - r), by positivity, fun y g G hy hg k => ?_⟩
  have hG : 0 ≤ G := (abs_nonneg _).trans (hg 0)
  have e := (forced_eq (t := t) (d := d) (y := fun k => y k - free t d (y 0) (y 1) k) (g := g)
    (by simp [free]) (by simp [free]) (fun k => by simp only [hy k, free]; ring) k).2
  rw [e]
  refine (Finset.abs_sum_le_sum_abs _ _).trans ?_
  have hterm : ∀ j ∈ Finset.range k, |impulse t d (k - 1 - j) * g j| ≤ C * G * r ^ (k - 1 - j) := by
    intro j _
    rw [abs_mul]
    calc _ ≤ (C * r ^ (k - 1 - j)) * G :=
          mul_le_mul (hb _) (hg j) (abs_nonneg _) (mul_nonneg hC (pow_pos r0 _).le)
      _ = _ := by ring
  refine (Finset.sum_le_sum hterm).trans ?_
  rw [Finset.sum_range_reflect (fun i => C * G * r ^ i) k, ← Finset.mul_sum]
  have hgeo : ∑ i ∈ Finset.range k, r ^ i ≤ 1 / (1 - r) := by
    rw [geom_sum_eq r1.ne, le_div_iff₀ hr]
    have : (r ^ k - 1) / (r - 1) * (1 - r) = 1 - r ^ k := by
      have : r - 1 ≠ 0 := by linarith
      field_simp
      ring
    rw [this]
    have := pow_pos r0 k
    linarith
  calc C * G * ∑ i ∈ Finset.range k, r ^ i ≤ C * G * (1 / (1 - r)) :=
        mul_le_mul_of_nonneg_left hgeo (mul_nonneg hC hG)
    _ = C / (1 - r) * G := by ring

theorem free_tendsto {t d : ℝ} (h1 : d < 1) (h2 : t < 1 + d) (h3 : -(1 + d) < t) (a b : ℝ) :
    Tendsto (free t d a b) atTop (𝓝 0) :=
  recurrence_tendsto h1 h2 h3 fun _ => rfl

/-- where the forcing term is bounded from some place on, the solution is in the end not much larger than a multiple -/
theorem forced_eventually {t d : ℝ} (h1 : d < 1) (h2 : t < 1 + d) (h3 : -(1 + d) < t) :
    ∃ B : ℝ, 0 ≤ B ∧ ∀ (y g : ℕ → ℝ) (G ε : ℝ), (∀ k, y (k + 2) = t * y (k + 1) - d * y k + g k) →
      (∀ᶠ k in atTop, |g k| ≤ G) → 0 < ε → ∀ᶠ k in atTop, |y k| ≤ B * G + ε := by
  obtain ⟨B, hB, h⟩ := forced_bound h1 h2 h3
  refine ⟨B, hB, fun y g G ε hy hg hε => ?_⟩
  obtain ⟨K, hK⟩ := eventually_atTop.1 hg
  have hk := h (fun k => y (k + K)) (fun k => g (k + K)) G
    (fun k => by
      have := hy (k + K)
      rw [show k + 2 + K = k + K + 2 by omega, show k + 1 + K = k + K + 1 by omega]
      exact this)
    (fun k => hK _ (by omega))
  have hfree := free_tendsto h1 h2 h3 (y (0 + K)) (y (1 + K))
  have hsmall : ∀ᶠ k in atTop, |free t d (y (0 + K)) (y (1 + K)) k| < ε := by
    have := hfree.abs.eventually (gt_mem_nhds (show |(0 : ℝ)| < ε by simpa using hε))
    exact this
  obtain ⟨N, hN⟩ := eventually_atTop.1 hsmall
  refine eventually_atTop.2 ⟨N + K, fun k hkN => ?_⟩
  obtain ⟨j, rfl⟩ : ∃ j, k = j + K := ⟨k - K, by omega⟩
  have a1 := hk j
  have a2 := hN j (by omega)
  have a3 := abs_sub_abs_le_abs_sub (y (j + K)) (free t d (y (0 + K)) (y (1 + K)) j)
  linarith

/-! ## The IMU -/

section
variable {V : Type} [AddCommGroup V] [Module ℝ V]

/-- the distance to the next sample obeys a linear recurrence that the second difference of the motion drives -/
theorem error_forced (f : V →ₗ[ℝ] ℝ) {dt : ℝ} (h0 : dt ≠ 0) (z : ℕ → V) (k : ℕ) :
    f (qpState z dt (k + 2)).1 - f (z (k + 2)) =
      (2 - 35 * dt - 625 * dt ^ 2) * (f (qpState z dt (k + 1)).1 - f (z (k + 1))) -
        (1 - 35 * dt) * (f (qpState z dt k).1 - f (z k)) + -(f (z (k + 2)) - 2 * f (z (k + 1)) + f (z k)) := by
  have hv : dt * f (zeroVel z dt (k + 1)) = f (z (k + 1)) - f (z k) := by
    simp only [zeroVel, map_smul, map_sub, smul_eq_mul]
    field_simp
  have a1 : f (qpState z dt (k + 2)).2 = f (qpState z dt (k + 1)).2 +
      dt * (35 * (f (zeroVel z dt (k + 1)) - f (qpState z dt (k + 1)).2) +
        625 * (f (z (k + 1)) - f (qpState z dt (k + 1)).1)) := by
    conv_lhs => rw [qpState]
    simp only [map_add, map_smul, map_sub, smul_eq_mul]
  have step : ∀ j, f (qpState z dt (j + 1)).1 = f (qpState z dt j).1 + dt * f (qpState z dt (j + 1)).2 := by
    intro j
    conv_lhs => rw [qpState]
    conv_rhs => rw [qpState.eq_def z dt (j + 1)]
    simp only [map_add, map_smul, smul_eq_mul]
  have a2 := step (k + 1)
  have a3 := step k
  rw [show k + 1 + 1 = k + 2 by omega] at a2
  linear_combination a2 + dt * a1 + 35 * dt * hv - (1 - 35 * dt) * a3

/-- **C96**: if the sample time is small enough, then the IMU catches up with every motion whose second difference
vanishes in the end. -/
theorem C96_follows (f : V →ₗ[ℝ] ℝ) {dt : ℝ} (h0 : 0 < dt) (hdt : 70 * dt + 625 * dt ^ 2 < 4) (z : ℕ → V)
    (hz : Tendsto (fun k => f (z (k + 2)) - 2 * f (z (k + 1)) + f (z k)) atTop (𝓝 0)) :
    ∃ out, Simulated z out dt ∧ Tendsto (fun k => f (out k) - f (z (k + 1))) atTop (𝓝 0) := by
  refine ⟨_, simulated z dt, ?_⟩
  obtain ⟨B, hB, h⟩ := forced_eventually (t := 2 - 35 * dt - 625 * dt ^ 2) (d := 1 - 35 * dt) (by linarith)
      (by nlinarith [sq_nonneg dt, pow_pos h0 2]) (by linarith)
  have key : Tendsto (fun k => f (qpState z dt k).1 - f (z k)) atTop (𝓝 0) := by
    rw [Metric.tendsto_atTop]
    intro ε hε
    have hG : 0 < ε / (4 * (B + 1)) := by positivity
    have hg : ∀ᶠ k in atTop, |(-(f (z (k + 2)) - 2 * f (z (k + 1)) + f (z k)))| ≤ ε / (4 * (B + 1)) := by
      have := hz.abs.eventually (gt_mem_nhds (show |(0 : ℝ)| < ε / (4 * (B + 1)) by simpa using hG))
      filter_upwards [this] with k hk
      rw [abs_neg]
      exact hk.le
    have := h (fun k => f (qpState z dt k).1 - f (z k)) _ _ (ε / 4) (fun k => error_forced f h0.ne' z k) hg (by linarith)
    obtain ⟨N, hN⟩ := eventually_atTop.1 this
    refine ⟨N, fun k hk => ?_⟩
    rw [Real.dist_eq, sub_zero]
    have hle : B * (ε / (4 * (B + 1))) ≤ ε / 4 := by
      rw [mul_div_assoc', div_le_div_iff₀ (by positivity) (by norm_num)]
      nlinarith
    linarith [hN k hk]
  exact (tendsto_add_atTop_iff_nat (f := fun k => f (qpState z dt k).1 - f (z k)) 1).2 key

/-- **C96**: if the sample time is small enough, then there is a bound, which only depends on the sample time, such that
for every motion with accelerations up to `a` in the end the IMU is in the end not further away from the next sample than
`a` times this bound. -/
theorem C96_bounded {dt : ℝ} (h0 : 0 < dt) (hdt : 70 * dt + 625 * dt ^ 2 < 4) :
    ∃ B : ℝ, 0 ≤ B ∧ ∀ (f : V →ₗ[ℝ] ℝ) (z : ℕ → V) (a : ℝ),
      (∀ᶠ k in atTop, |(f (z (k + 2)) - 2 * f (z (k + 1)) + f (z k)) / dt ^ 2| ≤ a) →
      ∃ out, Simulated z out dt ∧ ∀ ε > 0, ∀ᶠ k in atTop, |f (out k) - f (z (k + 1))| ≤ B * a + ε := by
  obtain ⟨B, hB, h⟩ := forced_eventually (t := 2 - 35 * dt - 625 * dt ^ 2) (d := 1 - 35 * dt) (by linarith)
      (by nlinarith [sq_nonneg dt, pow_pos h0 2]) (by linarith)
  refine ⟨B * dt ^ 2, by positivity, fun f z a ha => ⟨_, simulated z dt, fun ε hε => ?_⟩⟩
  have hd2 : 0 < dt ^ 2 := pow_pos h0 2
  have hg : ∀ᶠ k in atTop, |(-(f (z (k + 2)) - 2 * f (z (k + 1)) + f (z k)))| ≤ dt ^ 2 * a := by
    filter_upwards [ha] with k hk
    rw [abs_neg]
    rw [abs_div, abs_of_pos hd2, div_le_iff₀ hd2] at hk
    linarith
  have := h (fun k => f (qpState z dt k).1 - f (z k)) _ _ ε (fun k => error_forced f h0.ne' z k) hg hε
  have := (tendsto_add_atTop_nat 1).eventually this
  filter_upwards [this] with k hk
  rw [mul_assoc]
  exact hk

/-- **C96**: on the boundary of the sample times the distance to a uniform motion of velocity `u` does not vanish but
tends to the way done in a 35th of a second. -/
theorem C96_boundary_fails (f : V →ₗ[ℝ] ℝ) {dt : ℝ} (h0 : 0 < dt) (hdt : 70 * dt + 625 * dt ^ 2 = 4) (z : ℕ → V)
    (u : V) (hz : ∀ k, z (k + 1) = z k + dt • u) :
    ∃ out, Simulated z out dt ∧ Tendsto (fun k => |f (out k) - f (z (k + 1))|) atTop (𝓝 (|f u| / 35)) := by
  refine ⟨_, simulated z dt, ?_⟩
  have hd1 : -1 < 1 - 35 * dt := by nlinarith
  have hd2 : 1 - 35 * dt < 1 := by linarith
  set e : ℕ → ℝ := fun k => f (qpState z dt k).1 - f (z k) with he
  have hzf : ∀ k, f (z (k + 1)) = f (z k) + dt * f u := fun k => by
    have := congrArg f (hz k)
    simpa only [map_add, map_smul, smul_eq_mul] using this
  have hrec : ∀ k, e (k + 2) = -(1 + (1 - 35 * dt)) * e (k + 1) - (1 - 35 * dt) * e k := by
    intro k
    have := error_forced f h0.ne' z k
    simp only [he]
    rw [this, hzf (k + 1), hzf k]
    linear_combination (-(f (qpState z dt (k + 1)).1 - (f (z k) + dt * f u))) * hdt
  have e0 : e 0 = 0 := by simp [he, qpState]
  have e1 : e 1 = -(dt * f u) := by
    simp only [he, qpState, zeroVel, hzf 0]
    simp
  have inv : ∀ k, e (k + 1) + (1 - 35 * dt) * e k = (-1) ^ (k + 1) * (dt * f u) := by
    intro k
    induction k with
    | zero => rw [e0, e1]; ring
    | succ k ih =>
      rw [hrec k, pow_succ]
      linear_combination -ih
  have closed : ∀ k, e k = (-1) ^ k * (f u / 35) * (1 - (1 - 35 * dt) ^ k) := by
    intro k
    induction k with
    | zero => rw [e0]; simp
    | succ k ih =>
      have := inv k
      rw [ih] at this
      have e3 : e (k + 1) = (-1) ^ (k + 1) * (dt * f u) - (1 - 35 * dt) * ((-1) ^ k * (f u / 35) * (1 - (1 - 35 * dt) ^ k)) := by
        linarith
      rw [e3, pow_succ, pow_succ]
      ring
  have habs : ∀ k, |e k| = |f u| / 35 * |1 - (1 - 35 * dt) ^ k| := by
    intro k
    rw [closed k, abs_mul, abs_mul, abs_pow, abs_neg, abs_one, one_pow, one_mul, abs_div]
    norm_num
  have hpow : Tendsto (fun k : ℕ => (1 - 35 * dt) ^ k) atTop (𝓝 0) :=
    tendsto_pow_atTop_nhds_zero_of_abs_lt_one (abs_lt.2 ⟨hd1, hd2⟩)
  have hlim : Tendsto (fun k => |e k|) atTop (𝓝 (|f u| / 35)) := by
    have := ((hpow.const_sub 1).abs).const_mul (|f u| / 35)
    simp only [sub_zero, abs_one, mul_one] at this
    exact this.congr fun k => (habs k).symm
  exact (tendsto_add_atTop_iff_nat (f := fun k => |e k|) 1).2 hlim

end

/-! ## Examples -/

/-- a motion that slows down without end -/
example : ∃ out, Simulated (fun k : ℕ => (1 / 2 : ℝ) ^ k) out (1 / 100) ∧
    Tendsto (fun k : ℕ => out k - (1 / 2 : ℝ) ^ (k + 1)) atTop (𝓝 0) := by
  refine C96_follows (V := ℝ) LinearMap.id (by norm_num) (by norm_num) _ ?_
  have h : Tendsto (fun k : ℕ => (1 / 2 : ℝ) ^ k) atTop (𝓝 0) :=
    tendsto_pow_atTop_nhds_zero_of_lt_one (by norm_num) (by norm_num)
  have := h.const_mul (1 / 4)
  rw [mul_zero] at this
  refine this.congr fun k => ?_
  simp only [LinearMap.id_apply, pow_succ]
  ring

/-- an accelerated motion -/
example : ∃ B : ℝ, 0 ≤ B ∧ ∃ out, Simulated (fun k : ℕ => ((k : ℝ) / 100) ^ 2) out (1 / 100) ∧
    ∀ ε > 0, ∀ᶠ k : ℕ in atTop, |out k - (((k + 1 : ℕ) : ℝ) / 100) ^ 2| ≤ B * 2 + ε := by
  obtain ⟨B, hB, h⟩ := C96_bounded (V := ℝ) (dt := 1 / 100) (by norm_num) (by norm_num)
  refine ⟨B, hB, h LinearMap.id _ 2 (Eventually.of_forall fun k => ?_)⟩
  simp only [LinearMap.id_apply]
  push_cast
  have : ((((k : ℝ) + 2) / 100) ^ 2 - 2 * (((k : ℝ) + 1) / 100) ^ 2 + ((k : ℝ) / 100) ^ 2) / (1 / 100) ^ 2 = 2 := by ring
  rw [this]
  norm_num

/-- there is such a sample time -/
example : ∃ dt : ℝ, 0 < dt ∧ 70 * dt + 625 * dt ^ 2 = 4 := by
  have h : Real.sqrt 14900 ^ 2 = 14900 := Real.sq_sqrt (by norm_num)
  refine ⟨(-70 + Real.sqrt 14900) / 1250, ?_, by linear_combination h / 2500⟩
  have : 70 < Real.sqrt 14900 := by
    rw [Real.lt_sqrt (by norm_num)]
    norm_num
  linarith

end sensors
end RingLib
