import Mathlib.Topology.Algebra.Order.LiminfLimsup
import Mathlib.Analysis.SpecificLimits.Basic
import Verif.Props.ImuPipeline

/-!
# C96: the IMU on a spring follows the motion

`_quasi_physical_simulation` lets the IMU hang on a spring and a damper. The IMU catches up with a motion that becomes
uniform if `70 dt + 625 dt² < 4`, in particular at 25 Hz and faster. It diverges if `70 dt + 625 dt² > 4`, in
particular at 24 Hz.
-/

namespace RingLib
namespace sensors
open Filter Topology

section
variable {V : Type} [AddCommGroup V] [Module ℝ V]

/-! ## Specification -/

/-- the first samples of a motion -/
def samples (z : ℕ → V) (n : Nat) : List V := (List.range n).map z

/-- `out` is what is made of the motion `z`, sample by sample, for every number of samples -/
def Simulated (z out : ℕ → V) (dt : ℝ) : Prop :=
  ∀ n, _quasi_physical_simulation (samples z (n + 1)) dt = .ok (samples out (n + 1))

/-! ## Proofs -/

/-- the velocity of the zero point -/
noncomputable def zeroVel (z : ℕ → V) (dt : ℝ) : ℕ → V
  | 0 => 0
  | k + 1 => (1 / dt) • (z (k + 1) - z k)

/-- position and velocity before step `k` -/
noncomputable def qpState (z : ℕ → V) (dt : ℝ) : ℕ → V × V
  | 0 => (z 0, 0)
  | k + 1 =>
    let s := qpState z dt k
    let vel := s.2 + dt • ((35 : ℝ) • (zeroVel z dt k - s.2) + (625 : ℝ) • (z k - s.1))
    (s.1 + dt • vel, vel)

theorem qpScan_range (z : ℕ → V) (dt : ℝ) : ∀ n k, qpScan 35 625 dt (qpState z dt k).1 (qpState z dt k).2
    ((List.range' k n).map fun i => (z i, zeroVel z dt i)) = (List.range' k n).map fun i => (qpState z dt (i + 1)).1 := by
  intro n
  induction n with
  | zero => intro k; rfl
  | succ n ih =>
    intro k
    rw [List.range'_succ, List.map_cons, List.map_cons, qpScan]
    simp only
    have := ih (k + 1)
    simp only [qpState] at this ⊢
    rw [this]

theorem simulated (z : ℕ → V) (dt : ℝ) : Simulated z (fun k => (qpState z dt (k + 1)).1) dt := by
  intro n
  have e0 : samples z (n + 1) = z 0 :: (List.range' 1 n).map z := by
    unfold samples
    rw [List.range_eq_range', List.range'_succ, List.map_cons]
  have e1 : List.zip (samples z (n + 1)) (0 :: (diff (samples z (n + 1))).map ((1 / dt) • ·)) =
      (List.range' 0 (n + 1)).map fun i => (z i, zeroVel z dt i) := by
    apply List.ext_getElem
    · simp [samples, diff]
    · intro i h1 h2
      rcases i with _ | i
      · simp [samples, zeroVel]
      · simp [samples, diff, zeroVel]
  unfold _quasi_physical_simulation
  conv_lhs => rw [e0]
  simp only
  rw [← e0, e1]
  have := qpScan_range z dt (n + 1) 0
  simp only [qpState] at this
  rw [this]
  unfold samples
  rw [List.range_eq_range']
  rfl

/-- a linear recurrence of second order whose solutions vanish -/
theorem recurrence_tendsto {t d : ℝ} (h1 : d < 1) (h2 : t < 1 + d) (h3 : -(1 + d) < t) {y : ℕ → ℝ}
    (hy : ∀ k, y (k + 2) = t * y (k + 1) - d * y k) : Tendsto y atTop (𝓝 0) := by
  set W : ℕ → ℝ := fun k => (1 + d) * (y (k + 1) ^ 2 + y k ^ 2) - 2 * t * (y (k + 1) * y k) with hW
  have step : ∀ k, W (k + 1) = W k - (1 - d) * (t * y (k + 1) - (1 + d) * y k) ^ 2 := by
    intro k
    simp only [hW, hy k]
    ring
  have pos : ∀ k, 0 ≤ W k := by
    intro k
    simp only [hW]
    nlinarith [mul_nonneg (show 0 ≤ 1 + d - t by linarith) (sq_nonneg (y (k + 1) + y k)),
      mul_nonneg (show 0 ≤ 1 + d + t by linarith) (sq_nonneg (y (k + 1) - y k))]
  have anti : Antitone W := antitone_nat_of_succ_le fun k => by
    rw [step]
    nlinarith [mul_nonneg (show 0 ≤ 1 - d by linarith) (sq_nonneg (t * y (k + 1) - (1 + d) * y k))]
  have lim := tendsto_atTop_ciInf anti ⟨0, by rintro _ ⟨k, rfl⟩; exact pos k⟩
  have lim' := (tendsto_add_atTop_iff_nat 1).2 lim
  have hdiff : Tendsto (fun k => (W k - W (k + 1)) / (1 - d)) atTop (𝓝 0) := by
    have := (lim.sub lim').div_const (1 - d)
    simpa using this
  have hg2 : Tendsto (fun k => (t * y (k + 1) - (1 + d) * y k) ^ 2) atTop (𝓝 0) := by
    refine hdiff.congr fun k => ?_
    rw [step]
    field_simp [show (1 - d) ≠ 0 by linarith]
    ring
  have hg : Tendsto (fun k => t * y (k + 1) - (1 + d) * y k) atTop (𝓝 0) := by
    rw [tendsto_zero_iff_abs_tendsto_zero]
    have := hg2.sqrt
    simpa [Function.comp_def, Real.sqrt_sq_eq_abs] using this
  have hg' := (tendsto_add_atTop_iff_nat 1).2 hg
  have hh : Tendsto (fun k => t * y k - (1 + d) * y (k + 1)) atTop (𝓝 0) := by
    have := hg'.sub (hg.const_mul t)
    simp only [mul_zero, sub_zero] at this
    refine this.congr fun k => ?_
    rw [hy k]
    ring
  have hne : t ^ 2 - (1 + d) ^ 2 ≠ 0 := by
    have : t ^ 2 - (1 + d) ^ 2 = -((1 + d - t) * (1 + d + t)) := by ring
    rw [this]
    have := mul_pos (show 0 < 1 + d - t by linarith) (show 0 < 1 + d + t by linarith)
    linarith
  have := ((hg.const_mul (1 + d)).add (hh.const_mul t)).div_const (t ^ 2 - (1 + d) ^ 2)
  simp only [mul_zero, add_zero, zero_div] at this
  refine this.congr fun k => ?_
  field_simp
  ring

/-- a linear recurrence of second order with growing solutions -/
theorem recurrence_grows {a b : ℝ} (ha : 0 ≤ a) (hb : 0 ≤ b) (hab : 1 < a + b) {s : ℕ → ℝ}
    (hs : ∀ k, s (k + 2) = a * s (k + 1) + b * s k) (h0 : 0 < s 0) (h1 : 0 < s 1) : Tendsto s atTop atTop := by
  set m := min (s 0) (s 1)
  have hm : 0 < m := lt_min h0 h1
  have key : ∀ j, m * (a + b) ^ j ≤ s (2 * j) ∧ m * (a + b) ^ j ≤ s (2 * j + 1) := by
    intro j
    induction j with
    | zero => simp [m]
    | succ j ih =>
      obtain ⟨i1, i2⟩ := ih
      have e1 : s (2 * (j + 1)) = a * s (2 * j + 1) + b * s (2 * j) := hs (2 * j)
      have e2 : s (2 * (j + 1) + 1) = a * s (2 * (j + 1)) + b * s (2 * j + 1) := hs (2 * j + 1)
      have hp : 0 < m * (a + b) ^ j := by positivity
      have i3 : m * (a + b) ^ (j + 1) ≤ s (2 * (j + 1)) := by
        rw [e1, pow_succ]
        nlinarith [mul_le_mul_of_nonneg_left i1 hb, mul_le_mul_of_nonneg_left i2 ha]
      refine ⟨i3, ?_⟩
      rw [e2]
      have i4 : m * (a + b) ^ j ≤ m * (a + b) ^ (j + 1) := by
        rw [pow_succ]
        nlinarith
      have : m * (a + b) ^ (j + 1) = (a + b) * (m * (a + b) ^ j) := by rw [pow_succ]; ring
      nlinarith [mul_le_mul_of_nonneg_left i3 ha, mul_le_mul_of_nonneg_left i2 hb, mul_le_mul_of_nonneg_left i4 ha]
  have low : ∀ k, m * (a + b) ^ (k / 2) ≤ s k := by
    intro k
    rcases Nat.even_or_odd' k with ⟨j, rfl | rfl⟩
    · rw [Nat.mul_div_cancel_left j (by omega)]; exact (key j).1
    · rw [show (2 * j + 1) / 2 = j by omega]; exact (key j).2
  refine tendsto_atTop_mono low ?_
  apply Tendsto.const_mul_atTop hm
  exact (tendsto_pow_atTop_atTop_of_one_lt hab).comp
    (tendsto_atTop_mono' atTop (Eventually.of_forall fun _ => le_rfl) (Nat.tendsto_div_const_atTop (by omega)))

/-- the error after a step, from the sample `k0 + 1` on -/
theorem error_rec (f : V →ₗ[ℝ] ℝ) {dt : ℝ} (h0 : dt ≠ 0) {z : ℕ → V} {u : V} {k0 : ℕ}
    (hz : ∀ k, k0 ≤ k → z (k + 1) = z k + dt • u) (k : ℕ) (hk : k0 < k) :
    f (qpState z dt (k + 1)).2 - f u =
      (1 - 35 * dt) * (f (qpState z dt k).2 - f u) - 625 * dt * (f (qpState z dt k).1 - f (z k)) ∧
    f (qpState z dt (k + 1)).1 - f (z (k + 1)) =
      f (qpState z dt k).1 - f (z k) + dt * (f (qpState z dt (k + 1)).2 - f u) := by
  obtain ⟨j, rfl⟩ : ∃ j, k = j + 1 := ⟨k - 1, by omega⟩
  have e1 := congrArg f (hz j (by omega))
  have e2 := congrArg f (hz (j + 1) (by omega))
  simp only [map_add, map_smul, smul_eq_mul] at e1 e2
  have ev : f (zeroVel z dt (j + 1)) = f u := by
    simp only [zeroVel, map_smul, map_sub, smul_eq_mul, e1]
    field_simp
    ring
  constructor
  · conv_lhs => rw [qpState]
    simp only [map_add, map_smul, map_sub, smul_eq_mul, ev]
    ring
  · rw [e2]
    have : f (qpState z dt (j + 1 + 1)).1 = f (qpState z dt (j + 1)).1 + dt * f (qpState z dt (j + 1 + 1)).2 := by
      conv_lhs => rw [qpState]
      conv_rhs => rw [qpState.eq_def z dt (j + 1 + 1)]
      simp only [map_add, map_smul, smul_eq_mul]
    rw [this]
    ring

theorem error_rec2 (f : V →ₗ[ℝ] ℝ) {dt : ℝ} (h0 : dt ≠ 0) {z : ℕ → V} {u : V} {k0 : ℕ}
    (hz : ∀ k, k0 ≤ k → z (k + 1) = z k + dt • u) (k : ℕ) (hk : k0 < k) :
    f (qpState z dt (k + 2)).1 - f (z (k + 2)) =
      (2 - 35 * dt - 625 * dt ^ 2) * (f (qpState z dt (k + 1)).1 - f (z (k + 1))) -
        (1 - 35 * dt) * (f (qpState z dt k).1 - f (z k)) := by
  obtain ⟨a1, a2⟩ := error_rec f h0 hz k hk
  obtain ⟨b1, b2⟩ := error_rec f h0 hz (k + 1) (by omega)
  rw [b2, b1]
  linear_combination (1 - 35 * dt) * (-1) * a2

/-! ## C96 -/

/-- **C96**: if the sample time is small enough, then the IMU catches up with every motion that is uniform from some
sample on, whatever it was before: every coordinate of its distance to the next sample vanishes. -/
theorem C96_settles (f : V →ₗ[ℝ] ℝ) {dt : ℝ} (h0 : 0 < dt) (hdt : 70 * dt + 625 * dt ^ 2 < 4) (z : ℕ → V) (u : V)
    (k0 : ℕ) (hz : ∀ k, k0 ≤ k → z (k + 1) = z k + dt • u) :
    ∃ out, Simulated z out dt ∧ Tendsto (fun k => f (out k) - f (z (k + 1))) atTop (𝓝 0) := by
  refine ⟨_, simulated z dt, ?_⟩
  have h : Tendsto (fun j => f (qpState z dt (j + (k0 + 1))).1 - f (z (j + (k0 + 1)))) atTop (𝓝 0) := by
    apply recurrence_tendsto (t := 2 - 35 * dt - 625 * dt ^ 2) (d := 1 - 35 * dt) (by linarith)
      (by nlinarith [sq_nonneg dt, pow_pos h0 2]) (by linarith)
    intro k
    have := error_rec2 f h0.ne' hz (k + (k0 + 1)) (by omega)
    rw [show k + 2 + (k0 + 1) = k + (k0 + 1) + 2 by omega, show k + 1 + (k0 + 1) = k + (k0 + 1) + 1 by omega]
    exact this
  have h' := (tendsto_add_atTop_iff_nat (f := fun k => f (qpState z dt k).1 - f (z k)) (k0 + 1)).1 h
  exact (tendsto_add_atTop_iff_nat (f := fun k => f (qpState z dt k).1 - f (z k)) 1).2 h'

/-- **C96**: at 25 Hz and faster the IMU settles. -/
theorem C96_rate (f : V →ₗ[ℝ] ℝ) {hz : ℝ} (h25 : 25 ≤ hz) (z : ℕ → V) (u : V)
    (k0 : ℕ) (hu : ∀ k, k0 ≤ k → z (k + 1) = z k + (1 / hz) • u) :
    ∃ out, Simulated z out (1 / hz) ∧ Tendsto (fun k => f (out k) - f (z (k + 1))) atTop (𝓝 0) := by
  have hp : 0 < hz := by linarith
  refine C96_settles f (by positivity) ?_ z u k0 hu
  have h1 : 1 / hz ≤ 1 / 25 := one_div_le_one_div_of_le (by norm_num) h25
  have h2 : 0 < 1 / hz := by positivity
  nlinarith

/-- **C96**: where the motion comes to rest, so does the IMU, and there. -/
theorem C96_rest (f : V →ₗ[ℝ] ℝ) {dt : ℝ} (h0 : 0 < dt) (hdt : 70 * dt + 625 * dt ^ 2 < 4) (z : ℕ → V) (p : V)
    (k0 : ℕ) (hz : ∀ k, k0 ≤ k → z k = p) :
    ∃ out, Simulated z out dt ∧ Tendsto (fun k => f (out k)) atTop (𝓝 (f p)) := by
  obtain ⟨out, h1, h2⟩ := C96_settles f h0 hdt z 0 k0 (fun k hk => by
    rw [hz k hk, hz (k + 1) (by omega)]; simp)
  refine ⟨out, h1, ?_⟩
  have h3 := h2.add_const (f p)
  rw [zero_add] at h3
  refine h3.congr' ?_
  filter_upwards [eventually_ge_atTop k0] with k hk
  rw [hz (k + 1) (by omega)]
  ring

/-- what comes out is determined by what comes in -/
theorem simulated_unique {z out out' : ℕ → V} {dt : ℝ} (h : Simulated z out dt) (h' : Simulated z out' dt) : out = out' := by
  funext k
  have e : samples out (k + 1) = samples out' (k + 1) := Except.ok.inj ((h k).symm.trans (h' k))
  have := congrArg (fun l : List V => l[k]?) e
  simpa [samples] using this

/-- **C96**: of a uniform motion the IMU is one sample ahead in the end: its distance to the sample of the same
instant tends to the way done in one sample time. -/
theorem C96_ahead (f : V →ₗ[ℝ] ℝ) {dt : ℝ} (h0 : 0 < dt) (hdt : 70 * dt + 625 * dt ^ 2 < 4) (z : ℕ → V) (u : V)
    (k0 : ℕ) (hz : ∀ k, k0 ≤ k → z (k + 1) = z k + dt • u) :
    ∃ out, Simulated z out dt ∧ Tendsto (fun k => f (out k) - f (z k)) atTop (𝓝 (dt * f u)) := by
  obtain ⟨out, h1, h2⟩ := C96_settles f h0 hdt z u k0 hz
  refine ⟨out, h1, ?_⟩
  have h3 := h2.add_const (dt * f u)
  rw [zero_add] at h3
  refine h3.congr' ?_
  filter_upwards [eventually_ge_atTop k0] with k hk
  rw [hz k hk]
  simp only [map_add, map_smul, smul_eq_mul]
  ring

/-- **C96**: if the sample time is too large, then the distance of the IMU to a uniform motion grows beyond every bound. -/
theorem C96_diverges_fails (f : V →ₗ[ℝ] ℝ) {dt : ℝ} (h0 : 0 < dt) (hdt : 4 < 70 * dt + 625 * dt ^ 2) (z : ℕ → V)
    (u : V) (hu : f u ≠ 0) (hz : ∀ k, z (k + 1) = z k + dt • u) :
    ∃ out, Simulated z out dt ∧ Tendsto (fun k => |f (out k) - f (z k)|) atTop atTop := by
  refine ⟨_, simulated z dt, ?_⟩
  set e : ℕ → ℝ := fun k => f (qpState z dt k).1 - f (z k) with he
  have hz' : ∀ k, 0 ≤ k → z (k + 1) = z k + dt • u := fun k _ => hz k
  have hlarge : 1 / 25 < dt := by
    by_contra hc
    push Not at hc
    nlinarith
  have e1 : e 1 = -(dt * f u) := by
    have := congrArg f (hz 0)
    simp only [map_add, map_smul, smul_eq_mul] at this
    simp only [he, qpState, zeroVel]
    simp [this]
  have e2 : e 2 = (35 * dt + 625 * dt ^ 2 - 2) * (dt * f u) := by
    obtain ⟨a1, a2⟩ := error_rec f h0.ne' hz' 1 (by omega)
    have w1 : f (qpState z dt 1).2 = 0 := by simp [qpState, zeroVel]
    simp only [he] at e1 ⊢
    rw [a2, a1, e1, w1]
    ring
  have hrec : ∀ k, e (k + 1 + 2) = (2 - 35 * dt - 625 * dt ^ 2) * e (k + 1 + 1) - (1 - 35 * dt) * e (k + 1) :=
    fun k => error_rec2 f h0.ne' hz' (k + 1) (by omega)
  have grow : Tendsto (fun k => (-1) ^ k * (e (k + 1) * (-(f u)))) atTop atTop := by
    have hfu : 0 < f u * f u := mul_self_pos.2 hu
    apply recurrence_grows (a := 35 * dt + 625 * dt ^ 2 - 2) (b := 35 * dt - 1) (by nlinarith) (by linarith) (by linarith)
    · intro k
      have := hrec k
      rw [show k + 2 + 1 = k + 1 + 2 by omega, this]
      ring
    · simp only [zero_add, e1, pow_zero]
      nlinarith [mul_pos h0 hfu]
    · simp only [Nat.reduceAdd, e2, pow_one]
      have : 0 < (35 * dt + 625 * dt ^ 2 - 2) * dt := mul_pos (by nlinarith) h0
      nlinarith [mul_pos this hfu]
  have habs : Tendsto (fun k => |e (k + 1)| * |f u|) atTop atTop := by
    refine tendsto_atTop_mono (fun k => ?_) grow
    refine (le_abs_self _).trans ?_
    rw [abs_mul, abs_mul, abs_neg, abs_pow, abs_neg, abs_one, one_pow, one_mul]
  have habs' : Tendsto (fun k => |e (k + 1)|) atTop atTop :=
    (tendsto_mul_const_atTop_of_pos (abs_pos.2 hu)).1 habs
  refine tendsto_atTop_mono (fun k => ?_) (tendsto_atTop_add_const_right _ (-(dt * |f u|)) habs')
  have hk := congrArg f (hz k)
  simp only [map_add, map_smul, smul_eq_mul] at hk
  have : f (qpState z dt (k + 1)).1 - f (z k) = e (k + 1) - -(dt * f u) := by
    simp only [he, hk]; ring
  rw [this]
  have h3 := abs_sub_abs_le_abs_sub (e (k + 1)) (-(dt * f u))
  rw [abs_neg, abs_mul, abs_of_pos h0] at h3
  linarith

end

def coordX : Vec3 ℝ →ₗ[ℝ] ℝ := ⟨⟨Vec3.x, fun _ _ => rfl⟩, fun _ _ => rfl⟩
def coordY : Vec3 ℝ →ₗ[ℝ] ℝ := ⟨⟨Vec3.y, fun _ _ => rfl⟩, fun _ _ => rfl⟩
def coordZ : Vec3 ℝ →ₗ[ℝ] ℝ := ⟨⟨Vec3.z, fun _ _ => rfl⟩, fun _ _ => rfl⟩

/-- **C96**: positions in space: the squared distance to the motion vanishes. -/
theorem C96_distance {dt : ℝ} (h0 : 0 < dt) (hdt : 70 * dt + 625 * dt ^ 2 < 4) (z : ℕ → Vec3 ℝ) (u : Vec3 ℝ)
    (k0 : ℕ) (hz : ∀ k, k0 ≤ k → z (k + 1) = z k + dt • u) :
    ∃ out, Simulated z out dt ∧
      Tendsto (fun k => Vec3.dot (out k - z (k + 1)) (out k - z (k + 1))) atTop (𝓝 0) := by
  obtain ⟨out, h1, hx⟩ := C96_settles coordX h0 hdt z u k0 hz
  obtain ⟨out2, h2, hy⟩ := C96_settles coordY h0 hdt z u k0 hz
  obtain ⟨out3, h3, hw⟩ := C96_settles coordZ h0 hdt z u k0 hz
  obtain rfl := simulated_unique h2 h1
  obtain rfl := simulated_unique h3 h2
  refine ⟨_, h1, ?_⟩
  have := ((hx.mul hx).add (hy.mul hy)).add (hw.mul hw)
  simp only [mul_zero, add_zero] at this
  exact this

/-! ## Examples -/

/-- a cut corner: first along `x`, then along `y` -/
example : ∃ out, Simulated (fun k : ℕ => if k ≤ 10 then (⟨k, 0, 0⟩ : Vec3 ℝ) else ⟨10, (k : ℝ) - 10, 0⟩) out (1 / 100) ∧
    Tendsto (fun k : ℕ => Vec3.dot (out k - if k + 1 ≤ 10 then (⟨(k + 1 : ℕ), 0, 0⟩ : Vec3 ℝ) else ⟨10, ((k + 1 : ℕ) : ℝ) - 10, 0⟩)
      (out k - if k + 1 ≤ 10 then (⟨(k + 1 : ℕ), 0, 0⟩ : Vec3 ℝ) else ⟨10, ((k + 1 : ℕ) : ℝ) - 10, 0⟩)) atTop (𝓝 0) :=
  C96_distance (by norm_num) (by norm_num) _ ⟨0, 100, 0⟩ 11 (fun k hk => by
    have h1 : ¬ k ≤ 10 := by omega
    have h2 : ¬ k + 1 ≤ 10 := by omega
    simp only [h1, h2, if_false]
    have e : ((1 : ℝ) / 100) • (⟨0, 100, 0⟩ : Vec3 ℝ) = ⟨1 / 100 * 0, 1 / 100 * 100, 1 / 100 * 0⟩ := rfl
    rw [e]
    ext
    · simp
    · simp; ring
    · simp)

/-- at 100 Hz a coordinate of a step is followed -/
example : ∃ out, Simulated (fun k => if k < 5 then (0 : ℝ) else 3) out (1 / 100) ∧
    Tendsto (fun k => out k) atTop (𝓝 3) :=
  C96_rest LinearMap.id (by norm_num) (by norm_num) _ 3 5 (fun k hk => if_neg (by omega))

/-- at 25 Hz the IMU follows a uniform motion -/
example : ∃ out, Simulated (fun k : ℕ => (k : ℝ) / 25) out (1 / 25) ∧
    Tendsto (fun k : ℕ => out k - ((k + 1 : ℕ) : ℝ) / 25) atTop (𝓝 0) :=
  C96_rate (V := ℝ) LinearMap.id le_rfl _ 1 0 (fun k _ => by push_cast; simp only [smul_eq_mul]; ring)

/-- at 24 Hz it does not -/
example : ∃ out, Simulated (fun k : ℕ => (k : ℝ) / 24) out (1 / 24) ∧
    Tendsto (fun k : ℕ => |out k - (k : ℝ) / 24|) atTop atTop :=
  C96_diverges_fails (V := ℝ) LinearMap.id (by norm_num) (by norm_num) _ 1 (by simp)
    (fun k => by push_cast; simp only [smul_eq_mul]; ring)

end sensors
end RingLib
