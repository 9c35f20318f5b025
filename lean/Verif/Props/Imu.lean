import Verif.Model.Sensors
import Verif.Props.Trig
import Mathlib.Data.List.GetD

/-!
# Accelerometer and gyroscope (C37)

A trajectory with `N` samples is given by functions of the sample number.
-/

namespace RingLib.sensors
open maths Real System

/-- the trajectory with positions `p` and orientations `r` -/
def traj (p : Nat → Vec3 ℝ) (r : Nat → Quat ℝ) (N : Nat) : List (Transform ℝ) :=
  (List.range N).map fun t => ⟨p t, r t⟩

/-- every list of poses is such a trajectory -/
theorem traj_all (xs : List (Transform ℝ)) :
    traj (fun t => (xs.map Transform.pos).getD t 0)
      (fun t => (xs.map Transform.rot).getD t ⟨0, 0, 0, 0⟩) xs.length = xs := by
  apply List.ext_getElem
  · simp [traj]
  · intro t h1 h2
    simp only [traj, List.getElem_map, List.getElem_range]
    rw [List.getD_eq_getElem _ _ (by simpa using h2), List.getD_eq_getElem _ _ (by simpa using h2)]
    simp

/-! ## The accelerometer -/

theorem broadcast2_eq {α β γ : Type} (f : α → β → γ) (a : List α) (b : List β)
    (h : a.length = b.length) : broadcast2 f a b = .ok (List.zipWith f a b) := by
  match a, b, h with
  | [], [], _ => rfl
  | [x], [y], _ => rfl
  | x :: x' :: a, y :: y' :: b, h =>
    show (if _ then _ else _) = _
    rw [if_pos h]

/-- the second difference over `n` samples around sample `c`, plus gravity -/
noncomputable def accAt (p : Nat → Vec3 ℝ) (gravity : Vec3 ℝ) (dt : ℝ) (n c : Nat) : Vec3 ℝ :=
  (1 / (n * dt) ^ 2 : ℝ) • (p (c - n) + p (c + n) - (2 : ℝ) • p c) + gravity

/-- the sample around which the difference for sample `t` is taken: at most `n` away from the ends -/
def centre (N n t : Nat) : Nat := if t < n then t + n else if t + n < N then t else t - n

theorem accInner_eq (p : Nat → Vec3 ℝ) (gravity : Vec3 ℝ) (dt : ℝ) (n N : Nat) (hn : 0 < n) :
    accInner ((List.range N).map p) gravity dt n
      = (List.range (N - 2 * n)).map fun i => accAt p gravity dt n (i + n) := by
  unfold accInner dropEnd
  rw [if_neg (by omega), if_neg (by omega)]
  apply List.ext_getElem
  · simp; omega
  · intro i h1 h2
    have hi : i < N - 2 * n := by simpa using h2
    simp only [List.getElem_map, List.getElem_zipWith, List.getElem_take, List.getElem_drop,
      List.getElem_range, accAt]
    rw [Nat.add_sub_cancel, show i + n + n = 2 * n + i by omega, Nat.add_comm n i]

/-- **C37.** With at least `3n` samples, the accelerometer returns one value per sample: the central
second difference over `n` samples plus gravity, in the frame of the body; near the ends it is the
difference around the sample `n` further inside. -/
theorem C37_acc (p : Nat → Vec3 ℝ) (r : Nat → Quat ℝ) (gravity : Vec3 ℝ) (dt : ℝ) (n N : Nat)
    (hn : 0 < n) (hN : 3 * n ≤ N) :
    accelerometer (traj p r N) gravity dt n
      = .ok ((List.range N).map fun t => rotate (accAt p gravity dt n (centre N n t)) (r t)) := by
  unfold accelerometer
  have e1 : (traj p r N).map Transform.pos = (List.range N).map p := by simp [traj]
  have e2 : (traj p r N).map Transform.rot = (List.range N).map r := by simp [traj]
  rw [e1, e2, accInner_eq p gravity dt n N hn]
  have e3 : ((List.range (N - 2 * n)).map fun i => accAt p gravity dt n (i + n)).take n
      ++ ((List.range (N - 2 * n)).map fun i => accAt p gravity dt n (i + n))
      ++ takeEnd ((List.range (N - 2 * n)).map fun i => accAt p gravity dt n (i + n)) n
      = (List.range N).map fun t => accAt p gravity dt n (centre N n t) := by
    unfold takeEnd
    rw [if_neg (by omega)]
    apply List.ext_getElem
    · simp; omega
    · intro t h1 h2
      have ht : t < N := by simpa using h2
      simp only [List.getElem_append, List.length_append, List.length_take, List.length_map,
        List.length_range, List.getElem_take, List.getElem_drop, List.getElem_map,
        List.getElem_range, centre]
      by_cases c1 : t < n
      · rw [dif_pos (by omega), dif_pos (by omega), if_pos c1]
      · by_cases c2 : t + n < N
        · rw [dif_pos (by omega), dif_neg (by omega), if_neg c1, if_pos c2]
          congr 1
          omega
        · rw [dif_neg (by omega), if_neg c1, if_neg c2]
          congr 1
          omega
  dsimp only
  rw [e3, broadcast2_eq _ _ _ (by simp)]
  congr 1
  apply List.ext_getElem
  · simp
  · intro t h1 h2
    simp

/-- **C37.** On a trajectory quadratic in time the accelerometer returns exactly the acceleration
plus gravity, rotated into the frame of the body, at every sample. -/
theorem C37_quadratic (p0 v a : Vec3 ℝ) (r : Nat → Quat ℝ) (gravity : Vec3 ℝ) (dt : ℝ)
    (hdt : dt ≠ 0) (n N : Nat) (hn : 0 < n) (hN : 3 * n ≤ N) :
    accelerometer (traj (fun t => p0 + (t * dt) • v + ((t * dt) ^ 2 / 2) • a) r N) gravity dt n
      = .ok ((List.range N).map fun t => rotate (a + gravity) (r t)) := by
  rw [C37_acc _ r gravity dt n N hn hN]
  congr 1
  apply List.map_congr_left
  intro t ht
  have ht : t < N := List.mem_range.1 ht
  congr 1
  unfold accAt
  congr 1
  have hc : n ≤ centre N n t := by unfold centre; split <;> [omega; split <;> omega]
  obtain ⟨c, hc⟩ : ∃ c, centre N n t = c + n := ⟨_, (Nat.sub_add_cancel hc).symm⟩
  rw [hc, Nat.add_sub_cancel]
  have hn' : (n : ℝ) ≠ 0 := by exact_mod_cast hn.ne'
  push_cast
  have key : ∀ x y z : ℝ, 1 / (n * dt) ^ 2 * (x + c * dt * y + (c * dt) ^ 2 / 2 * z
      + (x + (c + n + n) * dt * y + ((c + n + n) * dt) ^ 2 / 2 * z)
      - 2 * (x + (c + n) * dt * y + ((c + n) * dt) ^ 2 / 2 * z)) = z := by
    intro x y z
    field_simp
    ring
  ext
  · exact key p0.x v.x a.x
  · exact key p0.y v.y a.y
  · exact key p0.z v.z a.z

/-- **C37.** At rest, and in uniform translation, the accelerometer returns the rotated gravity at
every sample. -/
theorem C37_rest_acc (p0 v : Vec3 ℝ) (r : Nat → Quat ℝ) (gravity : Vec3 ℝ) (dt : ℝ)
    (hdt : dt ≠ 0) (n N : Nat) (hn : 0 < n) (hN : 3 * n ≤ N) :
    accelerometer (traj (fun t => p0 + (t * dt) • v) r N) gravity dt n
      = .ok ((List.range N).map fun t => rotate gravity (r t)) := by
  have := C37_quadratic p0 v 0 r gravity dt hdt n N hn hN
  simpa using this

/-- **C37 fails** for short trajectories: with two samples the accelerometer raises, and with one
sample it returns no value at all. -/
theorem C37_short_fails (p : Nat → Vec3 ℝ) (r : Nat → Quat ℝ) (gravity : Vec3 ℝ) (dt : ℝ) :
    accelerometer (traj p r 2) gravity dt 1 = .error .value ∧
    accelerometer (traj p r 1) gravity dt 1 = .ok [] := by
  constructor
  · unfold accelerometer
    have e1 : (traj p r 2).map Transform.pos = (List.range 2).map p := by simp [traj]
    have e2 : (traj p r 2).map Transform.rot = (List.range 2).map r := by simp [traj]
    rw [e1, e2, accInner_eq p gravity dt 1 2 (by norm_num)]
    simp [List.range_succ, takeEnd, broadcast2]
  · unfold accelerometer
    have e1 : (traj p r 1).map Transform.pos = (List.range 1).map p := by simp [traj]
    have e2 : (traj p r 1).map Transform.rot = (List.range 1).map r := by simp [traj]
    rw [e1, e2, accInner_eq p gravity dt 1 1 (by norm_num)]
    simp [List.range_succ, takeEnd, broadcast2]

/-! ## The gyroscope -/

theorem gyrRow_negligible {dq : Quat ℝ} (h : dq.IsUnit) (hn : Negligible dq) (dt : ℝ) :
    gyrRow dt dq = 0 := by
  unfold gyrRow quat_to_rot_axis
  rw [quat_angle_negligible h hn]
  rw [if_neg (by norm_num)]

/-- axis and angle of a rotation by less than half a turn -/
theorem rot_axis_of {k : Vec3 ℝ} (hk : k.x ^ 2 + k.y ^ 2 + k.z ^ 2 = 1) {θ : ℝ} (hθ : |θ| < π)
    (hn : ¬ Negligible (quat_rot_axis k θ)) :
    (quat_to_rot_axis (quat_rot_axis k θ)).2 = -|θ| ∧
    (-|θ|) • (quat_to_rot_axis (quat_rot_axis k θ)).1 = θ • k := by
  have hpi := pi_pos
  rw [quat_rot_axis_eq, safe_normalize_of_unit hk] at hn ⊢
  have hv : (rotQuat k (-θ)).vec = ⟨-(sin (θ / 2) * k.x), -(sin (θ / 2) * k.y), -(sin (θ / 2) * k.z)⟩ := by
    ext <;> simp [rotQuat, neg_div]
  have hna : ¬ allclose0 (rotQuat k (-θ)).vec := hn
  have hnorm : norm3 (rotQuat k (-θ)).vec = |sin (θ / 2)| := by
    rw [hv]
    unfold norm3
    simp only
    rw [← sqrt_sq_eq_abs]
    congr 1
    linear_combination (sin (θ / 2)) ^ 2 * hk
  have habs : |sin (θ / 2)| = sin (|θ| / 2) := by
    rcases le_or_gt 0 θ with h | h
    · rw [abs_of_nonneg h] at hθ ⊢
      exact abs_of_nonneg (sin_nonneg_of_nonneg_of_le_pi (by linarith) (by linarith))
    · rw [abs_of_neg h] at hθ ⊢
      rw [neg_div, sin_neg]
      exact abs_of_nonpos (sin_nonpos_of_nonpos_of_neg_pi_le (by linarith) (by linarith))
  have hcos : (rotQuat k (-θ)).w = cos (|θ| / 2) := by
    have : cos (|θ| / 2) = cos (θ / 2) := by
      rcases abs_cases θ with ⟨h, _⟩ | ⟨h, _⟩ <;> rw [h]
      rw [neg_div, cos_neg]
    rw [this]
    simp [rotQuat, neg_div]
  have hang : quat_angle (rotQuat k (-θ)) = |θ| := by
    unfold quat_angle
    rw [safe_norm_of hna, hnorm, habs, hcos,
      atan2_unit (θ := |θ| / 2) (by have := abs_nonneg θ; linarith) (by linarith) rfl rfl]
    rw [show 2 * (|θ| / 2) = |θ| by ring]
    exact wrap_id (by have := abs_nonneg θ; linarith) hθ
  unfold quat_to_rot_axis
  refine ⟨by simp only [hang]; ring, ?_⟩
  simp only
  rw [safe_normalize_of hna, hnorm]
  have hpos : 0 < |sin (θ / 2)| := by rw [← hnorm]; exact norm3_pos hna
  have key : ∀ x : ℝ, -|θ| * (-(sin (θ / 2) * x) / |sin (θ / 2)|) = θ * x := by
    intro x
    rcases le_or_gt 0 θ with h | h
    · have hs : 0 ≤ sin (θ / 2) := by
        rw [abs_of_nonneg h] at hθ
        exact sin_nonneg_of_nonneg_of_le_pi (by linarith) (by linarith)
      rw [abs_of_nonneg hs] at hpos ⊢
      rw [abs_of_nonneg h]
      field_simp
    · have hs : sin (θ / 2) ≤ 0 := by
        rw [abs_of_neg h] at hθ
        exact sin_nonpos_of_nonpos_of_neg_pi_le (by linarith) (by linarith)
      rw [abs_of_nonpos hs] at hpos ⊢
      rw [abs_of_neg h]
      have : sin (θ / 2) ≠ 0 := by intro e; rw [e] at hpos; simp at hpos
      field_simp
  rw [hv]
  ext
  · exact key k.x
  · exact key k.y
  · exact key k.z

theorem negligible_of_small {k : Vec3 ℝ} (hk : k.x ^ 2 + k.y ^ 2 + k.z ^ 2 = 1) {θ : ℝ}
    (h : |θ| ≤ 1e-10) : Negligible (quat_rot_axis k θ) := by
  rw [quat_rot_axis_eq, safe_normalize_of_unit hk]
  have hs : |sin (θ / 2)| ≤ 1e-8 := by
    have h1 : |sin (θ / 2)| ≤ |θ / 2| := abs_sin_le_abs
    rw [abs_div, abs_of_pos (by norm_num : (0 : ℝ) < 2)] at h1
    have : |θ| / 2 ≤ 1e-8 := by norm_num at h ⊢; linarith
    linarith
  have hb : ∀ x : ℝ, x ^ 2 ≤ 1 → |sin (-θ / 2) * x| ≤ 1e-8 := by
    intro x hx
    have h1 : |x| ≤ 1 := abs_le_one_iff_mul_self_le_one.2 (by nlinarith)
    rw [neg_div, sin_neg, neg_mul, abs_neg, abs_mul]
    calc |sin (θ / 2)| * |x| ≤ 1e-8 * 1 :=
          mul_le_mul hs h1 (abs_nonneg _) (by norm_num)
      _ = 1e-8 := mul_one _
  exact ⟨hb k.x (by nlinarith [sq_nonneg k.y, sq_nonneg k.z]),
    hb k.y (by nlinarith [sq_nonneg k.x, sq_nonneg k.z]),
    hb k.z (by nlinarith [sq_nonneg k.x, sq_nonneg k.y])⟩

/-- the rate of a rotation by `θ` between two samples -/
theorem gyrRow_rot {k : Vec3 ℝ} (hk : k.x ^ 2 + k.y ^ 2 + k.z ^ 2 = 1) {θ : ℝ} (hθ : |θ| < π)
    (hn : ¬ Negligible (quat_rot_axis k θ)) (dt : ℝ) :
    gyrRow dt (quat_rot_axis k θ) = (θ / dt) • k := by
  obtain ⟨h1, h2⟩ := rot_axis_of hk hθ hn
  unfold gyrRow
  dsimp only
  rw [h1]
  rw [if_pos]
  · rw [div_eq_mul_inv, mul_comm, mul_smul, h2, smul_smul, mul_comm, ← div_eq_mul_inv]
  · rw [abs_neg, abs_abs]
    by_contra hc
    exact hn (negligible_of_small hk (not_lt.1 hc))

theorem quat_lists (r : Nat → Quat ℝ) (N j : Nat) (hj : 0 < j) :
    List.zipWith quat_mul (((List.range N).map r).drop j)
        ((dropEnd ((List.range N).map r) j).map quat_inv)
      = (List.range (N - j)).map fun t => quat_mul (r (t + j)) (quat_inv (r t)) := by
  unfold dropEnd
  rw [if_neg (by omega)]
  apply List.ext_getElem
  · simp
  · intro t h1 h2
    simp [Nat.add_comm]

/-- **C37.** With at least two samples, the first order gyroscope returns one value per sample: the
rotation vector from a sample to the next divided by the sampling time; the last one is repeated. -/
theorem C37_gyr_first (r : Nat → Quat ℝ) (dt : ℝ) (N : Nat) :
    gyroscope ((List.range (N + 2)).map r) dt false
      = .ok ((List.range (N + 2)).map fun t =>
          gyrRow dt (quat_mul (r (min t N + 1)) (quat_inv (r (min t N))))) := by
  unfold gyroscope
  rw [if_neg (by simp)]
  rw [quat_lists r (N + 2) 1 (by norm_num)]
  have hlast : ((List.range (N + 2 - 1)).map fun t => quat_mul (r (t + 1)) (quat_inv (r t))).getLast?
      = some (quat_mul (r (N + 1)) (quat_inv (r N))) := by
    rw [List.getLast?_eq_getElem?]
    simp
  dsimp only
  rw [hlast]
  dsimp only
  congr 1
  apply List.ext_getElem
  · simp
  · intro t h1 h2
    have ht : t < N + 2 := by simpa using h2
    simp only [List.getElem_map, List.getElem_append, List.length_map, List.length_range,
      List.getElem_range]
    by_cases c : t < N + 2 - 1
    · rw [dif_pos c, Nat.min_eq_left (by omega)]
    · rw [dif_neg c, Nat.min_eq_right (by omega)]
      simp [show t - (N + 2 - 1) = 0 by omega]

/-- **C37.** With at least three samples, the second order gyroscope returns one value per sample:
the rotation vector from the previous to the next sample divided by twice the sampling time; the
first and the last one are repeated. -/
theorem C37_gyr_second (r : Nat → Quat ℝ) (dt : ℝ) (N : Nat) :
    gyroscope ((List.range (N + 3)).map r) dt true
      = .ok ((List.range (N + 3)).map fun t =>
          gyrRow (2 * dt) (quat_mul (r (min (t - 1) N + 2)) (quat_inv (r (min (t - 1) N))))) := by
  unfold gyroscope
  rw [if_pos rfl]
  rw [quat_lists r (N + 3) 2 (by norm_num)]
  have hlast : ((List.range (N + 3 - 2)).map fun t => quat_mul (r (t + 2)) (quat_inv (r t))).getLast?
      = some (quat_mul (r (N + 2)) (quat_inv (r N))) := by
    rw [List.getLast?_eq_getElem?]
    simp
  have hfirst : ((List.range (N + 3 - 2)).map fun t => quat_mul (r (t + 2)) (quat_inv (r t))).head?
      = some (quat_mul (r 2) (quat_inv (r 0))) := by
    rw [List.head?_eq_getElem?]
    simp
  dsimp only
  rw [hlast, hfirst]
  dsimp only
  congr 1
  apply List.ext_getElem
  · simp
  · intro t h1 h2
    have ht : t < N + 3 := by simpa using h2
    simp only [List.getElem_map, List.getElem_range]
    congr 1
    match t with
    | 0 => simp
    | t + 1 =>
      simp only [List.getElem_cons_succ, List.getElem_append, List.length_map, List.length_range,
        List.getElem_map, List.getElem_range, Nat.add_sub_cancel]
      by_cases c : t < N + 3 - 2
      · rw [dif_pos c, Nat.min_eq_left (by omega)]
      · rw [dif_neg c, Nat.min_eq_right (by omega)]
        simp [show t - (N + 3 - 2) = 0 by omega]

theorem mul_inv_unit {q : Quat ℝ} (h : q.IsUnit) : quat_mul q (quat_inv q) = ⟨1, 0, 0, 0⟩ := by
  have h1 : q.w*q.w + q.x*q.x + q.y*q.y + q.z*q.z = 1 := h
  ext <;> simp [quat_mul, quat_inv]
  · linear_combination h1
  all_goals ring

/-- **C37.** With constant orientation the gyroscope returns zero at every sample. -/
theorem C37_rest_gyr {q : Quat ℝ} (h : q.IsUnit) (dt : ℝ) (second : Bool) (N : Nat)
    (hN : 2 + second.toNat ≤ N) :
    gyroscope (List.replicate N q) dt second = .ok (List.replicate N 0) := by
  have hu : (⟨1, 0, 0, 0⟩ : Quat ℝ).IsUnit := by simp [Quat.IsUnit, quat_dot]
  have hneg : Negligible (⟨1, 0, 0, 0⟩ : Quat ℝ) := by
    refine ⟨?_, ?_, ?_⟩ <;> norm_num
  have e : ∀ N, List.replicate N q = (List.range N).map fun _ => q := by
    intro N; simp
  cases second with
  | false =>
    obtain ⟨M, rfl⟩ : ∃ M, N = M + 2 := ⟨N - 2, by simp at hN; omega⟩
    rw [e, C37_gyr_first (fun _ => q)]
    simp only [mul_inv_unit h, gyrRow_negligible hu hneg]
    simp
  | true =>
    obtain ⟨M, rfl⟩ : ∃ M, N = M + 3 := ⟨N - 3, by simp at hN; omega⟩
    rw [e, C37_gyr_second (fun _ => q)]
    simp only [mul_inv_unit h, gyrRow_negligible hu hneg]
    simp

/-- the orientation of a body rotating about `k` with the rate `ω`, starting at `q0` -/
noncomputable def spin (k : Vec3 ℝ) (ω dt : ℝ) (q0 : Quat ℝ) (t : Nat) : Quat ℝ :=
  quat_mul (quat_rot_axis k (ω * (t * dt))) q0

theorem spin_step {k : Vec3 ℝ} (hk : k.x ^ 2 + k.y ^ 2 + k.z ^ 2 = 1) (ω dt : ℝ) {q0 : Quat ℝ}
    (h0 : q0.IsUnit) (t j : Nat) :
    quat_mul (spin k ω dt q0 (t + j)) (quat_inv (spin k ω dt q0 t))
      = quat_rot_axis k (ω * (j * dt)) := by
  unfold spin
  have h0' : q0.normSq = 1 := h0
  rw [quat_inv_mul, quat_mul_assoc', ← quat_mul_assoc' q0, mul_inv_self h0', unit_mul]
  have hna : ¬ (|k.x| ≤ 1e-8 ∧ |k.y| ≤ 1e-8 ∧ |k.z| ≤ 1e-8) := not_allclose_of_unit hk
  rw [(C15_rot_axis_add hna (ω * (t * dt)) 0).2, (C15_rot_axis_add hna _ _).1]
  congr 1
  push_cast
  ring

/-- The rotation is too slow to be seen by the library: within one step all components of the
rotation quaternion are below the tolerance `1e-8`. -/
def TooSlow (k : Vec3 ℝ) (θ : ℝ) : Prop :=
  |sin (θ / 2) * k.x| ≤ 1e-8 ∧ |sin (θ / 2) * k.y| ≤ 1e-8 ∧ |sin (θ / 2) * k.z| ≤ 1e-8

theorem tooSlow_iff {k : Vec3 ℝ} (hk : k.x ^ 2 + k.y ^ 2 + k.z ^ 2 = 1) (θ : ℝ) :
    Negligible (quat_rot_axis k θ) ↔ TooSlow k θ := by
  rw [quat_rot_axis_eq, safe_normalize_of_unit hk]
  unfold Negligible TooSlow rotQuat
  simp [neg_div, abs_mul]

/-- **C37, partial.** For a rotation about a fixed axis with constant rate `ω`, the gyroscope returns
exactly `ω k` at every sample, provided the body turns by less than half a turn within the time the
difference is taken over (one step, or two for the second order version).

Missing: rotations below the tolerance, for which zero is returned (`C37_slow_fails`). -/
theorem C37_rate_partial {k : Vec3 ℝ} (hk : k.x ^ 2 + k.y ^ 2 + k.z ^ 2 = 1) (ω dt : ℝ)
    (hdt : dt ≠ 0) {q0 : Quat ℝ} (h0 : q0.IsUnit) (second : Bool) (N : Nat)
    (hN : 2 + second.toNat ≤ N)
    (halias : |ω * ((1 + second.toNat : ℝ) * dt)| < π)
    (hslow : ¬ TooSlow k (ω * ((1 + second.toNat : ℝ) * dt))) :
    gyroscope ((List.range N).map (spin k ω dt q0)) dt second
      = .ok (List.replicate N (ω • k)) := by
  rw [← tooSlow_iff hk] at hslow
  cases second with
  | false =>
    obtain ⟨M, rfl⟩ : ∃ M, N = M + 2 := ⟨N - 2, by simp at hN; omega⟩
    rw [C37_gyr_first]
    simp only [Bool.toNat_false, Nat.cast_zero, add_zero, one_mul] at halias hslow
    simp only [spin_step hk ω dt h0, Nat.cast_one, one_mul]
    rw [gyrRow_rot hk halias hslow, mul_div_assoc, div_self hdt, mul_one]
    simp
  | true =>
    obtain ⟨M, rfl⟩ : ∃ M, N = M + 3 := ⟨N - 3, by simp at hN; omega⟩
    rw [C37_gyr_second]
    have e : (1 + (true.toNat : ℝ)) = ((2 : Nat) : ℝ) := by simp; norm_num
    rw [e] at halias hslow
    simp only [spin_step hk ω dt h0]
    rw [gyrRow_rot hk halias hslow]
    have : ω * (((2 : Nat) : ℝ) * dt) / (2 * dt) = ω := by
      push_cast
      field_simp
    rw [this]
    simp

/-- **C37 fails** for slow rotations: a body turning about `z` with `1e-6` rad/s sampled at 100 Hz is
reported as not turning. -/
theorem C37_slow_fails (N : Nat) :
    gyroscope ((List.range (N + 2)).map (spin ⟨0, 0, 1⟩ 1e-6 0.01 ⟨1, 0, 0, 0⟩)) 0.01 false
      = .ok (List.replicate (N + 2) 0) := by
  have hk : (⟨0, 0, 1⟩ : Vec3 ℝ).x ^ 2 + (⟨0, 0, 1⟩ : Vec3 ℝ).y ^ 2 + (⟨0, 0, 1⟩ : Vec3 ℝ).z ^ 2 = 1 := by
    norm_num
  have h0 : (⟨1, 0, 0, 0⟩ : Quat ℝ).IsUnit := by simp [Quat.IsUnit, Quat.normSq]
  rw [C37_gyr_first]
  simp only [spin_step hk _ _ h0, Nat.cast_one, one_mul]
  have hu : (quat_rot_axis ⟨0, 0, 1⟩ (1e-6 * 0.01)).IsUnit := by
    rw [quat_rot_axis_eq, safe_normalize_of_unit hk]
    exact rotQuat_unit hk _
  have hn : Negligible (quat_rot_axis ⟨0, 0, 1⟩ (1e-6 * 0.01)) := by
    rw [tooSlow_iff hk]
    refine ⟨by norm_num, by norm_num, ?_⟩
    have h1 : |sin ((1e-6 * 0.01 : ℝ) / 2)| ≤ |(1e-6 * 0.01 : ℝ) / 2| := abs_sin_le_abs
    have h2 : |(1e-6 * 0.01 : ℝ) / 2| ≤ 1e-8 := by norm_num
    rw [mul_one]
    exact h1.trans h2
  rw [gyrRow_negligible hu hn]
  simp

/-! ## Examples -/

/-- A quarter turn per second about `z`, sampled at 100 Hz: the hypotheses are met. -/
example : |(π / 2) * ((1 + (false.toNat : ℝ)) * 0.01)| < π ∧
    ¬ TooSlow ⟨0, 0, 1⟩ ((π / 2) * ((1 + (false.toNat : ℝ)) * 0.01)) := by
  have hpi := pi_pos
  have h3 := pi_gt_three
  constructor
  · rw [abs_of_pos (by simp; positivity)]
    simp
    norm_num
    linarith
  · intro h
    have h1 := h.2.2
    simp only [mul_one, Bool.toNat_false, Nat.cast_zero, add_zero, one_mul] at h1
    have hx : 0 ≤ π / 2 * 0.01 / 2 := by positivity
    have hx2 : π / 2 * 0.01 / 2 ≤ π / 2 := by norm_num; linarith
    have := mul_le_sin hx hx2
    have e : 2 / π * (π / 2 * 0.01 / 2) = 0.005 := by field_simp; norm_num
    rw [e] at this
    rw [abs_of_nonneg (by linarith)] at h1
    norm_num at h1 this
    linarith

/-- Free fall from rest with three samples: gravity plus acceleration vanish. -/
example : accelerometer (traj (fun t => 0 + ((t : ℝ) * 0.01) • (0 : Vec3 ℝ)
      + (((t : ℝ) * 0.01) ^ 2 / 2) • (⟨0, 0, -9.81⟩ : Vec3 ℝ)) (fun _ => ⟨1, 0, 0, 0⟩) 3)
    ⟨0, 0, 9.81⟩ 0.01 1 = .ok [0, 0, 0] := by
  rw [C37_quadratic 0 0 _ _ _ _ (by norm_num) 1 3 (by norm_num) (by norm_num)]
  have e : (⟨0, 0, -9.81⟩ : Vec3 ℝ) + ⟨0, 0, 9.81⟩ = 0 := by ext <;> simp
  rw [e]
  simp [List.range_succ, rotate_zero]

end RingLib.sensors
