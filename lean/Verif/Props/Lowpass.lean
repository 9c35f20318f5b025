import Verif.Model.Sensors
import Verif.Props.Trig
import Verif.Props.Imu
import Verif.Props.Sizes
import Mathlib.Tactic.Module

/-!
# Low-pass filters (C38)
-/

namespace RingLib.sensors
open System maths Real

variable {V : Type} [AddCommGroup V] [Module ℝ V]

/-! ## The Butterworth smoother -/

theorem butter_denominator (ita : ℝ) : 0 < 1 + √2 * ita + ita ^ 2 := by
  have h : √2 ^ 2 = 2 := sq_sqrt (by norm_num)
  nlinarith [sq_nonneg (√2 * ita + 1)]

/-- **C38.** The coefficients sum to one: unit gain for constant signals, for every cut-off. -/
theorem C38_gain (fs fc : ℝ) :
    (butterCoeffs fs fc).1 + (butterCoeffs fs fc).2.1 + (butterCoeffs fs fc).2.2.1
      + (butterCoeffs fs fc).2.2.2.1 + (butterCoeffs fs fc).2.2.2.2 = 1 := by
  have h := butter_denominator (1 / tan (π * (fc / fs)))
  unfold butterCoeffs
  dsimp only
  generalize 1 / tan (π * (fc / fs)) = ita at h
  have h' := h.ne'
  field_simp
  ring

theorem butterScan_length (c : ℝ × ℝ × ℝ × ℝ × ℝ) (x1 x2 y1 y2 : V) (xs : List V) :
    (butterScan c x1 x2 y1 y2 xs).length = xs.length := by
  induction xs generalizing x1 x2 y1 y2 with
  | nil => rfl
  | cons x xs ih => simp [butterScan, ih]

theorem butterScan_const (c : ℝ × ℝ × ℝ × ℝ × ℝ)
    (hc : c.1 + c.2.1 + c.2.2.1 + c.2.2.2.1 + c.2.2.2.2 = 1) (v : V) (n : Nat) :
    butterScan c v v v v (List.replicate n v) = List.replicate n v := by
  have e : c.1 • v + c.2.1 • v + c.2.2.1 • v + c.2.2.2.1 • v + c.2.2.2.2 • v = v := by
    rw [← add_smul, ← add_smul, ← add_smul, ← add_smul, hc, one_smul]
  induction n with
  | zero => rfl
  | succ n ih => rw [List.replicate_succ, butterScan, e, ih]

theorem butterScan_linear (c : ℝ × ℝ × ℝ × ℝ × ℝ) (a b : ℝ) (xs zs : List V) (x1 x2 y1 y2 : V)
    (u1 u2 w1 w2 : V) :
    butterScan c (a • x1 + b • u1) (a • x2 + b • u2) (a • y1 + b • w1) (a • y2 + b • w2)
        (List.zipWith (fun u v => a • u + b • v) xs zs)
      = List.zipWith (fun u v => a • u + b • v) (butterScan c x1 x2 y1 y2 xs)
          (butterScan c u1 u2 w1 w2 zs) := by
  induction xs generalizing zs x1 x2 y1 y2 u1 u2 w1 w2 with
  | nil => simp [butterScan]
  | cons x xs ih =>
    cases zs with
    | nil => simp [butterScan]
    | cons z zs =>
      simp only [List.zipWith_cons_cons, butterScan]
      have e : c.1 • (a • x + b • z) + c.2.1 • (a • x1 + b • u1) + c.2.2.1 • (a • x2 + b • u2)
          + c.2.2.2.1 • (a • y1 + b • w1) + c.2.2.2.2 • (a • y2 + b • w2)
          = a • (c.1 • x + c.2.1 • x1 + c.2.2.1 • x2 + c.2.2.2.1 • y1 + c.2.2.2.2 • y2)
            + b • (c.1 • z + c.2.1 • u1 + c.2.2.1 • u2 + c.2.2.2.1 • w1 + c.2.2.2.2 • w2) := by
        module
      rw [e, ih]

theorem butterPass_long (c : ℝ × ℝ × ℝ × ℝ × ℝ) (signal : List V) (h : 3 ≤ signal.length) :
    ∃ out, butterPass c signal = .ok out ∧ out.length = signal.length := by
  match signal, h with
  | s0 :: s1 :: s2 :: rest, _ =>
    refine ⟨_, rfl, ?_⟩
    simp [butterScan_length, butterScan]

/-- **C38.** From three samples on, the smoother returns a signal of the same length. -/
theorem C38_length_partial (signal : List V) (fs fc : ℝ) (h : 3 ≤ signal.length) :
    ∃ out, _butterworth signal fs fc = .ok out ∧ out.length = signal.length := by
  obtain ⟨o1, e1, l1⟩ := butterPass_long (butterCoeffs fs fc) signal h
  obtain ⟨o2, e2, l2⟩ := butterPass_long (butterCoeffs fs fc) o1.reverse (by simp [l1, h])
  refine ⟨o2.reverse, ?_, by simp [l2, l1]⟩
  unfold _butterworth
  dsimp only
  rw [e1, ok_bind, e2, ok_bind]
  rfl

/-- **C38 fails** for signals with fewer than three samples: an exception is raised. -/
theorem C38_short_fails (signal : List V) (fs fc : ℝ) (h : signal.length < 3) :
    _butterworth signal fs fc = .error .index := by
  unfold _butterworth
  match signal, h with
  | [], _ => rfl
  | [a], _ => rfl
  | [a, b], _ => rfl

theorem butterPass_const (c : ℝ × ℝ × ℝ × ℝ × ℝ)
    (hc : c.1 + c.2.1 + c.2.2.1 + c.2.2.2.1 + c.2.2.2.2 = 1) (v : V) (n : Nat) :
    butterPass c (List.replicate (n + 3) v) = .ok (List.replicate (n + 3) v) := by
  have : List.replicate (n + 3) v = v :: v :: List.replicate (n + 1) v := by
    simp [List.replicate_succ]
  rw [this]
  show Except.ok _ = _
  simp only [List.head?_cons, Option.getD_some, List.drop_succ_cons, List.drop_zero]
  rw [butterScan_const c hc]
  simp [List.replicate_succ]

/-- **C38.** Constant signals are left unchanged, for every cut-off. -/
theorem C38_const (v : V) (n : Nat) (hn : 3 ≤ n) (fs fc : ℝ) :
    _butterworth (List.replicate n v) fs fc = .ok (List.replicate n v) := by
  obtain ⟨m, rfl⟩ : ∃ m, n = m + 3 := ⟨n - 3, by omega⟩
  have hc := C38_gain fs fc
  unfold _butterworth
  dsimp only
  rw [butterPass_const _ hc, ok_bind, List.reverse_replicate, butterPass_const _ hc, ok_bind,
    List.reverse_replicate]
  rfl

theorem butterPass_linear (c : ℝ × ℝ × ℝ × ℝ × ℝ) (a b : ℝ) (x z : List V)
    (hxz : x.length = z.length) (h : 3 ≤ x.length) :
    ∃ ox oz, butterPass c x = .ok ox ∧ butterPass c z = .ok oz ∧ ox.length = x.length ∧
      oz.length = z.length ∧
      butterPass c (List.zipWith (fun u v => a • u + b • v) x z)
        = .ok (List.zipWith (fun u v => a • u + b • v) ox oz) := by
  obtain ⟨ox, ex, lx⟩ := butterPass_long c x h
  obtain ⟨oz, ez, lz⟩ := butterPass_long c z (by omega)
  refine ⟨ox, oz, ex, ez, lx, lz, ?_⟩
  match x, z, hxz, h with
  | x0 :: x1 :: x2 :: xs, z0 :: z1 :: z2 :: zs, hxz, _ =>
    simp only [butterPass, List.head?_cons, Option.getD_some, List.drop_succ_cons, List.drop_zero,
      Except.ok.injEq] at ex ez
    subst ex ez
    simp only [List.zipWith_cons_cons, butterPass, List.head?_cons, Option.getD_some,
      List.drop_succ_cons, List.drop_zero]
    congr 1
    have := butterScan_linear c a b (x2 :: xs) (z2 :: zs) x1 x0 x1 x0 z1 z0 z1 z0
    simp only [List.zipWith_cons_cons] at this
    rw [this]
    simp [butterScan]

/-- **C38.** The smoother is linear. -/
theorem C38_linear (a b : ℝ) (x z : List V) (hxz : x.length = z.length) (h : 3 ≤ x.length)
    (fs fc : ℝ) :
    ∃ ox oz, _butterworth x fs fc = .ok ox ∧ _butterworth z fs fc = .ok oz ∧
      _butterworth (List.zipWith (fun u v => a • u + b • v) x z) fs fc
        = .ok (List.zipWith (fun u v => a • u + b • v) ox oz) := by
  obtain ⟨ox, oz, e1, e2, l1, l2, e3⟩ := butterPass_linear (butterCoeffs fs fc) a b x z hxz h
  obtain ⟨px, pz, f1, f2, m1, m2, f3⟩ := butterPass_linear (butterCoeffs fs fc) a b ox.reverse
    oz.reverse (by simp [l1, l2, hxz]) (by simp [l1, h])
  refine ⟨px.reverse, pz.reverse, ?_, ?_, ?_⟩
  · unfold _butterworth; dsimp only; rw [e1, ok_bind, f1]; rfl
  · unfold _butterworth; dsimp only; rw [e2, ok_bind, f2]; rfl
  · unfold _butterworth
    dsimp only
    rw [e3, ok_bind, List.reverse_zipWith (by omega), f3, ok_bind,
      List.reverse_zipWith (by simp at m1 m2; omega)]
    rfl

theorem butterScan_rec (c : ℝ × ℝ × ℝ × ℝ × ℝ) (xs : List V) (x1 x2 y1 y2 : V) (t : Nat)
    (ht : t < xs.length) :
    (y2 :: y1 :: butterScan c x1 x2 y1 y2 xs).getD (t + 2) 0
      = c.1 • (x2 :: x1 :: xs).getD (t + 2) 0 + c.2.1 • (x2 :: x1 :: xs).getD (t + 1) 0
        + c.2.2.1 • (x2 :: x1 :: xs).getD t 0
        + c.2.2.2.1 • (y2 :: y1 :: butterScan c x1 x2 y1 y2 xs).getD (t + 1) 0
        + c.2.2.2.2 • (y2 :: y1 :: butterScan c x1 x2 y1 y2 xs).getD t 0 := by
  induction xs generalizing x1 x2 y1 y2 t with
  | nil => simp at ht
  | cons x xs ih =>
    match t with
    | 0 => simp [butterScan]
    | t + 1 =>
      rw [butterScan]
      have := ih x x1 (c.1 • x + c.2.1 • x1 + c.2.2.1 • x2 + c.2.2.2.1 • y1 + c.2.2.2.2 • y2) y1 t
        (by simpa using ht)
      simpa only [List.getD_cons_succ] using this

/-- Specification of a second-order recursive filter: `z` starts with the first two samples and obeys
the recurrence; the output is `z` with the first two samples replaced by the third. -/
def IsFilterPass (b0 b1 b2 a1 a2 : ℝ) (x y : List V) : Prop :=
  ∃ z : List V, z.length = x.length ∧ y.length = x.length ∧
    z.getD 0 0 = x.getD 0 0 ∧ z.getD 1 0 = x.getD 1 0 ∧
    (∀ t, t + 2 < x.length → z.getD (t + 2) 0 = b0 • x.getD (t + 2) 0 + b1 • x.getD (t + 1) 0
      + b2 • x.getD t 0 + a1 • z.getD (t + 1) 0 + a2 • z.getD t 0) ∧
    y.getD 0 0 = z.getD 2 0 ∧ y.getD 1 0 = z.getD 2 0 ∧ ∀ t, y.getD (t + 2) 0 = z.getD (t + 2) 0

theorem butterPass_filter (c : ℝ × ℝ × ℝ × ℝ × ℝ) (signal : List V) (h : 3 ≤ signal.length) :
    ∃ out, butterPass c signal = .ok out ∧
      IsFilterPass c.1 c.2.1 c.2.2.1 c.2.2.2.1 c.2.2.2.2 signal out := by
  match signal, h with
  | s0 :: s1 :: s2 :: rest, _ =>
    refine ⟨_, rfl, s0 :: s1 :: butterScan c s1 s0 s1 s0 (s2 :: rest), ?_, ?_, rfl, rfl, ?_,
      ?_, ?_, ?_⟩
    · simp [butterScan_length]
    · simp [butterScan_length, butterScan]
    · intro t ht
      exact butterScan_rec c (s2 :: rest) s1 s0 s1 s0 t (by simpa using ht)
    · simp [butterScan]
    · simp [butterScan]
    · intro t
      simp [butterScan]

/-- **C38.** The smoother runs the filter forward in time and then backward in time over the result,
and returns the samples in their original order. -/
theorem C38_zero_phase (signal : List V) (fs fc : ℝ) (h : 3 ≤ signal.length) :
    ∃ forward out ita b0 a1 a2, _butterworth signal fs fc = .ok out ∧
      ita = 1 / tan (π * (fc / fs)) ∧ b0 * (1 + √2 * ita + ita ^ 2) = 1 ∧
      a1 = 2 * (ita ^ 2 - 1) * b0 ∧ a2 = -(1 - √2 * ita + ita ^ 2) * b0 ∧
      IsFilterPass b0 (2 * b0) b0 a1 a2 signal forward ∧
      IsFilterPass b0 (2 * b0) b0 a1 a2 forward.reverse out.reverse := by
  obtain ⟨o1, e1, h1⟩ := butterPass_filter (butterCoeffs fs fc) signal h
  have l1 : o1.length = signal.length := by obtain ⟨z, _, hl, _⟩ := h1; exact hl
  obtain ⟨o2, e2, h2⟩ := butterPass_filter (butterCoeffs fs fc) o1.reverse
    (by rw [List.length_reverse]; omega)
  refine ⟨o1, o2.reverse, 1 / tan (π * (fc / fs)), _, _, _, ?_, rfl, ?_, rfl, rfl, h1, ?_⟩
  · unfold _butterworth
    dsimp only
    rw [e1, ok_bind, e2, ok_bind]
    rfl
  · exact one_div_mul_cancel (butter_denominator _).ne'
  · rw [List.reverse_reverse]
    exact h2

/-! ## The quaternion filter -/

theorem norm4_unit {q : Quat ℝ} (h : q.IsUnit) : norm4 q = 1 := by
  have h1 : q.w*q.w + q.x*q.x + q.y*q.y + q.z*q.z = 1 := h
  unfold norm4
  rw [show q.w ^ 2 + q.x ^ 2 + q.y ^ 2 + q.z ^ 2 = 1 by linear_combination h1, sqrt_one]

theorem quatNormalized_unit {q : Quat ℝ} (h : q.IsUnit) : quatNormalized q = q := by
  unfold quatNormalized
  rw [norm4_unit h]
  simp

theorem unit_quat_mul {p q : Quat ℝ} (hp : p.IsUnit) (hq : q.IsUnit) : (quat_mul p q).IsUnit := by
  have hp' : p.normSq = 1 := hp
  have hq' : q.normSq = 1 := hq
  show (quat_mul p q).normSq = 1
  rw [normSq_mul, hp', hq', one_mul]

theorem unit_quat_inv {q : Quat ℝ} (hq : q.IsUnit) : (quat_inv q).IsUnit := by
  have hq' : q.normSq = 1 := hq
  show (quat_inv q).normSq = 1
  rw [normSq_inv, hq']

theorem allclose_neg (v : Vec3 ℝ) : allclose0 (-v) ↔ allclose0 v := by
  simp [allclose0, isclose0]

/-- The correction of one step is a unit quaternion. -/
theorem scaled_unit {q : Quat ℝ} (h : q.IsUnit) (alpha : ℝ) :
    (let aa := quat_to_rot_axis q
     let aa := if aa.2 < 0 then (-aa.1, -aa.2) else aa
     quat_rot_axis aa.1 (aa.2 * alpha)).IsUnit := by
  dsimp only
  by_cases hn : Negligible q
  · have h2 : (quat_to_rot_axis q).2 = 0 := by
      unfold quat_to_rot_axis
      rw [quat_angle_negligible h hn]
      simp
    have h1 : (quat_to_rot_axis q).1 = 0 := safe_normalize_zero (v := q.vec) hn
    rw [if_neg (by rw [h2]; norm_num), h1, h2, zero_mul]
    have : allclose0 (0 : Vec3 ℝ) := by
      unfold allclose0 isclose0
      norm_num
    rw [quat_rot_axis_eq, safe_normalize_zero this]
    simp [rotQuat, Quat.IsUnit]
  · have hk : (quat_to_rot_axis q).1.x ^ 2 + (quat_to_rot_axis q).1.y ^ 2
        + (quat_to_rot_axis q).1.z ^ 2 = 1 := safe_normalize_unit (v := q.vec) hn
    split
    · have hk' : (-(quat_to_rot_axis q).1).x ^ 2 + (-(quat_to_rot_axis q).1).y ^ 2
        + (-(quat_to_rot_axis q).1).z ^ 2 = 1 := by
        simpa using hk
      rw [quat_rot_axis_eq, safe_normalize_of_unit hk']
      exact rotQuat_unit hk' _
    · rw [quat_rot_axis_eq, safe_normalize_of_unit hk]
      exact rotQuat_unit hk _

theorem lowpassStep_unit (alpha : ℝ) {y x : Quat ℝ} (hy : y.IsUnit) (hx : x.IsUnit) :
    (lowpassStep alpha y x).IsUnit :=
  unit_quat_mul (scaled_unit (unit_quat_mul hx (unit_quat_inv hy)) alpha) hy

theorem lowpassScan_unit (alpha : ℝ) (xs : List (Quat ℝ)) {y : Quat ℝ} (hy : y.IsUnit)
    (hx : ∀ x ∈ xs, x.IsUnit) :
    (lowpassScan alpha y xs).length = xs.length ∧ ∀ q ∈ lowpassScan alpha y xs, q.IsUnit := by
  induction xs generalizing y with
  | nil => exact ⟨rfl, by simp [lowpassScan]⟩
  | cons x xs ih =>
    have h1 := lowpassStep_unit alpha hy (hx x (by simp))
    have h2 := ih h1 fun z hz => hx z (by simp [hz])
    refine ⟨by simp [lowpassScan, h2.1], ?_⟩
    intro q hq
    rcases List.mem_cons.1 hq with rfl | hq
    · exact h1
    · exact h2.2 q hq

theorem lowpassForward_unit (qs : List (Quat ℝ)) (hne : qs ≠ []) (hu : ∀ q ∈ qs, q.IsUnit)
    (fc fs : ℝ) :
    ∃ out, lowpassForward qs fc fs = .ok out ∧ out.length = qs.length ∧ ∀ q ∈ out, q.IsUnit := by
  match qs, hne with
  | q0 :: qs, _ =>
    have h0 := hu q0 (by simp)
    have h := lowpassScan_unit (lowpassAlpha fc fs) qs h0 fun q hq => hu q (by simp [hq])
    refine ⟨_, rfl, by simp [h.1], ?_⟩
    intro q hq
    obtain ⟨p, hp, rfl⟩ := List.mem_map.1 hq
    have hpu : p.IsUnit := by
      rcases List.mem_cons.1 hp with rfl | hp
      · exact h0
      · exact h.2 p hp
    rw [quatNormalized_unit hpu]
    exact hpu

/-- **C38.** The quaternion filter maps non-empty sequences of unit quaternions to sequences of unit
quaternions of the same length, in one or both directions, for every cut-off. -/
theorem C38_quat_unit (qs : List (Quat ℝ)) (hne : qs ≠ []) (hu : ∀ q ∈ qs, q.IsUnit) (fc fs : ℝ)
    (filtfilt : Bool) :
    ∃ out, quat_lowpassfilter qs fc fs filtfilt = .ok out ∧ out.length = qs.length ∧
      ∀ q ∈ out, q.IsUnit := by
  obtain ⟨o1, e1, l1, u1⟩ := lowpassForward_unit qs hne hu fc fs
  unfold quat_lowpassfilter
  cases filtfilt with
  | false => exact ⟨o1, e1, l1, u1⟩
  | true =>
    have hne1 : o1.reverse ≠ [] := by
      intro e
      have := congrArg List.length e
      rw [List.length_reverse, l1, List.length_nil] at this
      exact hne (List.length_eq_zero_iff.1 this)
    obtain ⟨o2, e2, l2, u2⟩ := lowpassForward_unit o1.reverse hne1 (by simpa using u1) fc fs
    refine ⟨o2.reverse, ?_, by simp [l2, l1], by simpa using u2⟩
    rw [if_pos rfl, e1, ok_bind, e2, ok_bind]
    rfl

theorem lowpassStep_const (alpha : ℝ) {q : Quat ℝ} (h : q.IsUnit) : lowpassStep alpha q q = q := by
  have h' : q.normSq = 1 := h
  have hu : (unitQuat : Quat ℝ).IsUnit := by simp [Quat.IsUnit, unitQuat]
  have hn : Negligible (unitQuat : Quat ℝ) := by
    refine ⟨?_, ?_, ?_⟩ <;> simp [unitQuat] <;> norm_num
  unfold lowpassStep
  dsimp only
  rw [mul_inv_self h']
  have h2 : (quat_to_rot_axis (unitQuat : Quat ℝ)).2 = 0 := by
    unfold quat_to_rot_axis
    rw [quat_angle_negligible hu hn]
    simp
  have h1 : (quat_to_rot_axis (unitQuat : Quat ℝ)).1 = 0 :=
    safe_normalize_zero (v := (unitQuat : Quat ℝ).vec) hn
  rw [if_neg (by rw [h2]; norm_num), h1, h2, zero_mul]
  have h0 : allclose0 (0 : Vec3 ℝ) := by
    unfold allclose0 isclose0
    norm_num
  have : quat_rot_axis (0 : Vec3 ℝ) 0 = unitQuat := by
    rw [quat_rot_axis_eq, safe_normalize_zero h0]
    simp [rotQuat, unitQuat]
  rw [this, unit_mul]

theorem lowpassForward_const {q : Quat ℝ} (h : q.IsUnit) (n : Nat) (fc fs : ℝ) :
    lowpassForward (List.replicate (n + 1) q) fc fs = .ok (List.replicate (n + 1) q) := by
  have key : ∀ n, lowpassScan (lowpassAlpha fc fs) q (List.replicate n q) = List.replicate n q := by
    intro n
    induction n with
    | zero => rfl
    | succ n ih => rw [List.replicate_succ, lowpassScan, lowpassStep_const _ h, ih]
  rw [List.replicate_succ]
  show Except.ok _ = _
  rw [key, List.map_cons, quatNormalized_unit h, List.map_replicate, quatNormalized_unit h]

/-- **C38.** Constant orientation sequences are kept, in one or both directions, for every
cut-off. -/
theorem C38_quat_const {q : Quat ℝ} (h : q.IsUnit) (n : Nat) (hn : 0 < n) (fc fs : ℝ)
    (filtfilt : Bool) :
    quat_lowpassfilter (List.replicate n q) fc fs filtfilt = .ok (List.replicate n q) := by
  obtain ⟨m, rfl⟩ : ∃ m, n = m + 1 := ⟨n - 1, by omega⟩
  unfold quat_lowpassfilter
  cases filtfilt with
  | false => exact lowpassForward_const h m fc fs
  | true =>
    rw [if_pos rfl, lowpassForward_const h, ok_bind, List.reverse_replicate,
      lowpassForward_const h, ok_bind, List.reverse_replicate]
    rfl

theorem rot_axis_neg {k : Vec3 ℝ} (hk : k.x ^ 2 + k.y ^ 2 + k.z ^ 2 = 1) (θ : ℝ) :
    quat_rot_axis (-k) (-θ) = quat_rot_axis k θ := by
  have hk' : (-k).x ^ 2 + (-k).y ^ 2 + (-k).z ^ 2 = 1 := by simpa using hk
  rw [quat_rot_axis_eq, quat_rot_axis_eq, safe_normalize_of_unit hk, safe_normalize_of_unit hk']
  ext <;> simp [rotQuat, neg_div]

/-- **C38.** One step of the quaternion filter goes the fraction `α` of the way from the current
value `y` to the new sample `x`: `x` is reached from `y` by turning about an axis `k` by an angle `θ`
of at most half a turn (up to the sign of the quaternion, which does not matter for the rotation),
and the step turns about `k` by `α θ`. -/
theorem C38_step (alpha : ℝ) {y x : Quat ℝ} (hy : y.IsUnit) (hx : x.IsUnit)
    (hn : ¬ Negligible (quat_mul x (quat_inv y))) :
    ∃ (k : Vec3 ℝ) (θ : ℝ), k.x ^ 2 + k.y ^ 2 + k.z ^ 2 = 1 ∧ 0 ≤ θ ∧ θ ≤ π ∧
      (quat_mul (quat_rot_axis k θ) y = x ∨ quat_mul (quat_rot_axis k θ) y = -x) ∧
      lowpassStep alpha y x = quat_mul (quat_rot_axis k (θ * alpha)) y := by
  have hu : (quat_mul x (quat_inv y)).IsUnit := unit_quat_mul hx (unit_quat_inv hy)
  have hy' : y.normSq = 1 := hy
  have hrt := C15_round_trip hu hn
  have hback : quat_mul (quat_mul x (quat_inv y)) y = x := by
    rw [quat_mul_assoc', inv_mul_self hy', mul_unit]
  have hback' : quat_mul (-(quat_mul x (quat_inv y))) y = -x := by
    have : ∀ a b : Quat ℝ, quat_mul (-a) b = -(quat_mul a b) := by
      intro a b
      ext <;> simp [quat_mul] <;> ring
    rw [this, hback]
  have hdir : quat_mul (quat_rot_axis (quat_to_rot_axis (quat_mul x (quat_inv y))).1
      (quat_to_rot_axis (quat_mul x (quat_inv y))).2) y = x ∨
      quat_mul (quat_rot_axis (quat_to_rot_axis (quat_mul x (quat_inv y))).1
      (quat_to_rot_axis (quat_mul x (quat_inv y))).2) y = -x := by
    rw [hrt]
    split
    · exact Or.inl hback
    · exact Or.inr hback'
  have hk : (quat_to_rot_axis (quat_mul x (quat_inv y))).1.x ^ 2
      + (quat_to_rot_axis (quat_mul x (quat_inv y))).1.y ^ 2
      + (quat_to_rot_axis (quat_mul x (quat_inv y))).1.z ^ 2 = 1 :=
    safe_normalize_unit (v := (quat_mul x (quat_inv y)).vec) hn
  have hw := wrap_mem (2 * atan2 (safe_norm (quat_mul x (quat_inv y)).vec)
    (quat_mul x (quat_inv y)).w)
  have hang : -π ≤ (quat_to_rot_axis (quat_mul x (quat_inv y))).2 ∧
      (quat_to_rot_axis (quat_mul x (quat_inv y))).2 ≤ π := by
    have e : (quat_to_rot_axis (quat_mul x (quat_inv y))).2
        = -wrap_to_pi (2 * atan2 (safe_norm (quat_mul x (quat_inv y)).vec)
          (quat_mul x (quat_inv y)).w) := by
      show quat_angle _ * -1 = _
      rw [mul_neg_one]
      rfl
    rw [e]
    constructor <;> linarith [hw.1, hw.2]
  unfold lowpassStep
  dsimp only
  generalize quat_to_rot_axis (quat_mul x (quat_inv y)) = aa at hdir hk hang
  by_cases h : aa.2 < 0
  · refine ⟨-aa.1, -aa.2, by simpa using hk, by linarith, by linarith [hang.1], ?_, ?_⟩
    · rw [rot_axis_neg hk]
      exact hdir
    · rw [if_pos h]
  · refine ⟨aa.1, aa.2, hk, not_lt.1 h, hang.2, hdir, ?_⟩
    rw [if_neg h]

/-- **C38.** The fraction lies strictly between zero and one for positive frequencies. -/
theorem C38_alpha (fc fs : ℝ) (hc : 0 < fc) (hs : 0 < fs) :
    0 < lowpassAlpha fc fs ∧ lowpassAlpha fc fs < 1 ∧
      lowpassAlpha fc fs = 2 * π * fc / (fs + 2 * π * fc) := by
  have hpi := pi_pos
  have h : 0 < 2 * π * fc / fs := by positivity
  unfold lowpassAlpha
  dsimp only
  refine ⟨by positivity, by rw [div_lt_one (by positivity)]; linarith, ?_⟩
  field_simp

/-! ## Examples -/

/-- The hypotheses are met by a signal of three samples. -/
example : ∃ out, _butterworth [0, 1, (2 : ℝ)] 100 20 = .ok out ∧ out.length = 3 :=
  C38_length_partial [0, 1, (2 : ℝ)] 100 20 (by simp)

/-- A turn by 180° in one step. -/
example : ∃ out, quat_lowpassfilter [⟨1, 0, 0, 0⟩, ⟨0, 1, 0, 0⟩] 20 100 true = .ok out ∧
    out.length = 2 ∧ ∀ q ∈ out, q.IsUnit :=
  C38_quat_unit [⟨1, 0, 0, 0⟩, ⟨0, 1, 0, 0⟩] (by simp) (by simp [Quat.IsUnit]) 20 100 true

end RingLib.sensors
