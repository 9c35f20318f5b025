import Verif.Model.SaddleEnv
import Verif.Props.Trig

/-!
# C91: the gymnasium environment `Saddle-v0`
-/

namespace RingLib.saddle

open maths Real

variable {ρ X : Type}

/-! ## Specification -/

/-- A recording of `n` samples with proper orientations. -/
structure WellFormed (r : Recording X) (n : Nat) : Prop where
  acc1 : r.acc1.length = n
  gyr1 : r.gyr1.length = n
  acc2 : r.acc2.length = n
  gyr2 : r.gyr2.length = n
  truth : r.truth.length = n
  xs : r.xs.length = n
  unit : ∀ q ∈ r.truth, q.IsUnit

/-- `o` consists of the twelve measurements at time `i`: accelerometer and gyroscope of the first segment, then of the
second. -/
def ObsAt (r : Recording X) (i : Nat) (o : List ℝ) : Prop :=
  ∃ a g b h : Vec3 ℝ, r.acc1[i]? = some a ∧ r.gyr1[i]? = some g ∧ r.acc2[i]? = some b ∧ r.gyr2[i]? = some h ∧
    o = [a.x, a.y, a.z, g.x, g.y, g.z, b.x, b.y, b.z, h.x, h.y, h.z]

/-- scalar product -/
def inner4 (p q : Quat ℝ) : ℝ := p.w * q.w + p.x * q.x + p.y * q.y + p.z * q.z

/-- the angle between the rotations of `q` and `a` (of any length) -/
noncomputable def angleBetween (q a : Quat ℝ) : ℝ := 2 * arccos (|inner4 q a| / √(inner4 a a))

/-- What `step` must return at time `i` (that is, as the `i + 1`-st result) for the action `a`. -/
structure Expected (r : Recording X) (n i : Nat) (a : Quat ℝ) (s : StepResult) : Prop where
  obs : ObsAt r (i + 1) s.obs
  info : r.truth[i + 1]? = some s.info
  notTerminated : s.terminated = false
  truncated : s.truncated = true ↔ i + 1 = n - 1
  reward : ∃ q, r.truth[i]? = some q ∧ (inner4 a a ≠ 0 → ∃ x : ℝ, s.reward = .fin x ∧ -π ≤ x ∧ x ≤ 0 ∧
    (x = -angleBetween q a ∨ x = 0 ∧ angleBetween q a ≤ 1e-7))

/-! ## Lemmas -/

theorem pyGet_at {β : Type} {l : List β} {i : Nat} {x : β} (h : l[i]? = some x) :
    pyGet l (i : Int) = .ok x := by
  have h1 : ¬ ((i : Int) < 0) := by omega
  simp only [pyGet, h1, if_false, Int.toNat_natCast, h]

theorem pyGet_beyond {β : Type} {l : List β} {i : Nat} (h : l.length ≤ i) :
    pyGet l (i : Int) = .error .index := by
  have h1 : ¬ ((i : Int) < 0) := by omega
  simp only [pyGet, h1, if_false, Int.toNat_natCast, List.getElem?_eq_none h]

theorem norm4_inner (a : Quat ℝ) : norm4 a = √(inner4 a a) := by
  unfold norm4 inner4
  congr 1
  ring

theorem inner4_nonneg (a : Quat ℝ) : 0 ≤ inner4 a a := by
  unfold inner4
  nlinarith [mul_self_nonneg a.w, mul_self_nonneg a.x, mul_self_nonneg a.y, mul_self_nonneg a.z]

theorem normalised_zero {a : Quat ℝ} (h : inner4 a a = 0) : normalised a = none := by
  unfold normalised
  rw [if_pos]
  rw [norm4_inner, h, sqrt_zero]

theorem norm4_pos' {a : Quat ℝ} (h : inner4 a a ≠ 0) : 0 < norm4 a := by
  rw [norm4_inner]
  exact sqrt_pos.2 (lt_of_le_of_ne (inner4_nonneg a) (Ne.symm h))

theorem normalised_some {a : Quat ℝ} (h : inner4 a a ≠ 0) :
    ∃ u : Quat ℝ, normalised a = some u ∧ u.IsUnit ∧ ∀ q, inner4 q u = inner4 q a / √(inner4 a a) := by
  have hn := norm4_pos' h
  refine ⟨_, if_neg hn.ne', ?_, ?_⟩
  · have h2 : norm4 a * norm4 a = inner4 a a := by
      rw [norm4_inner]; exact mul_self_sqrt (inner4_nonneg a)
    show a.w / norm4 a * (a.w / norm4 a) + a.x / norm4 a * (a.x / norm4 a) + a.y / norm4 a * (a.y / norm4 a)
      + a.z / norm4 a * (a.z / norm4 a) = 1
    have h3 : a.w * a.w + a.x * a.x + a.y * a.y + a.z * a.z = norm4 a * norm4 a := by rw [h2]; rfl
    field_simp
    linarith
  · intro q
    rw [← norm4_inner]
    simp only [inner4]
    field_simp

/-- The error of a normalised action. -/
theorem reward_of {q a : Quat ℝ} (hq : q.IsUnit) (ha : inner4 a a ≠ 0) :
    ∃ x : ℝ, neg (abs_angle q (normalised a)) = .fin x ∧ -π ≤ x ∧ x ≤ 0 ∧
      (x = -angleBetween q a ∨ x = 0 ∧ angleBetween q a ≤ 1e-7) := by
  obtain ⟨u, hu, hun, hin⟩ := normalised_some ha
  have hl := (C14_angle_error_laws hq hun hq).1
  have he := C14_angle_error hq hun
  have hang : 2 * arccos |q.w * u.w + q.x * u.x + q.y * u.y + q.z * u.z| = angleBetween q a := by
    have h0 := hin q
    unfold angleBetween
    unfold inner4 at h0 ⊢
    rw [h0, abs_div, abs_of_nonneg (sqrt_nonneg _)]
  rw [hang] at he
  refine ⟨-angle_error q u, by rw [hu]; rfl, by linarith [hl.2], by linarith [hl.1], ?_⟩
  by_cases hneg : Negligible (quat_mul (quat_inv q) u)
  · right
    have := he.2 hneg
    exact ⟨by rw [this.1, neg_zero], this.2⟩
  · left
    rw [he.1 hneg]

theorem observations_ok {r : Recording X} {n : Nat} (h : WellFormed r n) :
    ∃ obs, observations r n = .ok obs ∧ obs.length = n ∧ ∀ i o, obs[i]? = some o → ObsAt r i o := by
  refine ⟨List.zipWith (fun (p : Vec3 ℝ × Vec3 ℝ) (q : Vec3 ℝ × Vec3 ℝ) => row p.1 p.2 q.1 q.2)
    (r.acc1.zip r.gyr1) (r.acc2.zip r.gyr2), ?_, ?_, ?_⟩
  · simp [observations, assigned, h.acc1, h.gyr1, h.acc2, h.gyr2, bind, Except.bind, pure, Except.pure]
  · simp [h.acc1, h.gyr1, h.acc2, h.gyr2]
  · intro i o ho
    rw [List.getElem?_zipWith_eq_some] at ho
    obtain ⟨⟨a, g⟩, ⟨b, k⟩, h1, h2, rfl⟩ := ho
    obtain ⟨h3, h4⟩ := List.getElem?_zip_eq_some.1 h1
    obtain ⟨h5, h6⟩ := List.getElem?_zip_eq_some.1 h2
    exact ⟨a, g, b, k, h3, h4, h5, h6, rfl⟩

/-- the object at time `i` of an episode on the recording `r` -/
structure Inv (r : Recording X) (n i : Nat) (e : Env ρ X) : Prop where
  truth : e.truth = r.truth
  xs : e.xs = r.xs
  T : e.T = n
  t : e.t = i
  obs : observations r n = .ok e.observations

theorem get_obs_info_ok {r : Recording X} {n i : Nat} (h : WellFormed r n) {e : Env ρ X} (hi : i < n)
    (he : Inv r n i e) : ∃ o q, get_obs_info e = .ok (o, q) ∧ ObsAt r i o ∧ r.truth[i]? = some q := by
  obtain ⟨obs, h1, h2, h3⟩ := observations_ok h
  have h4 : obs = e.observations := by
    have := he.obs
    rw [h1] at this
    exact Except.ok.inj this
  subst h4
  have ho : e.observations[i]? = some (e.observations[i]'(by omega)) := List.getElem?_eq_getElem _
  have hq : r.truth[i]? = some (r.truth[i]'(by rw [h.truth]; exact hi)) := List.getElem?_eq_getElem _
  refine ⟨_, _, ?_, h3 i _ ho, hq⟩
  unfold get_obs_info
  rw [he.t, he.truth, pyGet_at ho, pyGet_at hq]
  rfl

theorem get_obs_info_beyond {r : Recording X} {n i : Nat} (h : WellFormed r n) {e : Env ρ X} (hi : n ≤ i)
    (he : Inv r n i e) : get_obs_info e = .error .index := by
  obtain ⟨obs, h1, h2, h3⟩ := observations_ok h
  have h4 : obs = e.observations := by
    have := he.obs
    rw [h1] at this
    exact Except.ok.inj this
  subst h4
  unfold get_obs_info
  rw [he.t, pyGet_beyond (by omega)]
  rfl

theorem step_inv {r : Recording X} {n i : Nat} {e : Env ρ X} (he : Inv r n i e) (a : Quat ℝ) :
    Inv r n (i + 1) (step a e).1 :=
  ⟨he.truth, he.xs, he.T, by show e.t + 1 = i + 1; rw [he.t], he.obs⟩

theorem clamped_ok {r : Recording X} {n i : Nat} (h : WellFormed r n) (hi : i < n) :
    ∃ q, r.truth[i]? = some q ∧ clamped r.truth i = .ok q := by
  have hq : r.truth[i]? = some (r.truth[i]'(by rw [h.truth]; exact hi)) := List.getElem?_eq_getElem _
  refine ⟨_, hq, ?_⟩
  unfold clamped
  have : min i (r.truth.length - 1) = i := by rw [h.truth]; omega
  rw [this]
  exact pyGet_at hq

/-- One step, with the reward as the code computes it. -/
theorem step_ok {r : Recording X} {n i : Nat} (h : WellFormed r n) {e : Env ρ X} (hi : i + 1 < n)
    (he : Inv r n i e) (a : Quat ℝ) :
    ∃ s q, (step a e).2 = .ok s ∧ r.truth[i]? = some q ∧ s.reward = neg (abs_angle q (normalised a)) ∧
      Expected r n i a s := by
  obtain ⟨o, q', h1, h2, h3⟩ := get_obs_info_ok h hi (step_inv he a)
  obtain ⟨q, hq, hc⟩ := clamped_ok h (i := i) (by omega)
  have ht : (step a e).1.t = i + 1 := (step_inv he a).t
  have hT : (step a e).1.T = n := (step_inv he a).T
  have e2 : (step a e).2 = .ok ⟨o, neg (abs_angle q (normalised a)), false, decide (i + 1 ≥ n - 1), q'⟩ := by
    have : (step a e).2 = (do
      let q ← clamped (step a e).1.truth ((step a e).1.t - 1)
      let (obs, info) ← get_obs_info (step a e).1
      return ⟨obs, neg (abs_angle q (normalised a)), false, decide ((step a e).1.t ≥ (step a e).1.T - 1), info⟩) := rfl
    rw [this, ht, hT, (step_inv he a).truth, h1]
    simp only [Nat.add_sub_cancel, hc]
    rfl
  refine ⟨_, q, e2, hq, rfl, ⟨h2, h3, rfl, ?_, q, hq, fun ha => reward_of ?_ ha⟩⟩
  · simp only [decide_eq_true_eq]
    omega
  · exact h.unit q (List.mem_of_getElem? hq)

theorem step_beyond {r : Recording X} {n i : Nat} (h : WellFormed r n) (hn : 0 < n) {e : Env ρ X} (hi : n ≤ i + 1)
    (he : Inv r n i e) (a : Quat ℝ) : (step a e).2 = .error .index := by
  have h1 := get_obs_info_beyond h hi (step_inv he a)
  have : (step a e).2 = (do
      let q ← clamped (step a e).1.truth ((step a e).1.t - 1)
      let (obs, info) ← get_obs_info (step a e).1
      return ⟨obs, neg (abs_angle q (normalised a)), false, decide ((step a e).1.t ≥ (step a e).1.T - 1), info⟩) := rfl
  rw [this, h1]
  cases hc : clamped (step a e).1.truth ((step a e).1.t - 1) with
  | ok q => rfl
  | error x =>
    exfalso
    have hq : r.truth[min i (r.truth.length - 1)]? = some (r.truth[min i (r.truth.length - 1)]'(by
      rw [h.truth]; omega)) := List.getElem?_eq_getElem _
    rw [(step_inv he a).truth, (step_inv he a).t] at hc
    unfold clamped at hc
    simp only [Nat.add_sub_cancel] at hc
    rw [pyGet_at hq] at hc
    cases hc

theorem run_ok {r : Recording X} {n : Nat} (h : WellFormed r n) :
    ∀ (as : List (Quat ℝ)) (i : Nat) (e : Env ρ X), Inv r n i e → i + as.length < n →
      ∃ e' ss, run as e = .ok (e', ss) ∧ ss.length = as.length ∧ Inv r n (i + as.length) e' ∧
        ∀ j a s, as[j]? = some a → ss[j]? = some s → Expected r n (i + j) a s ∧
          ∃ q, r.truth[i + j]? = some q ∧ s.reward = neg (abs_angle q (normalised a)) := by
  intro as
  induction as with
  | nil =>
    intro i e he _
    exact ⟨e, [], rfl, rfl, by simpa using he, by simp⟩
  | cons a as ih =>
    intro i e he hi
    simp only [List.length_cons] at hi
    obtain ⟨s, q, h1, h2, h3, h4⟩ := step_ok h (by omega) he a
    obtain ⟨e', ss, h5, h6, h7, h8⟩ := ih (i + 1) (step a e).1 (step_inv he a) (by omega)
    refine ⟨e', s :: ss, ?_, by simp [h6], ?_, ?_⟩
    · simp only [run, h1, h5, bind, Except.bind, pure, Except.pure]
    · have : i + (a :: as).length = i + 1 + as.length := by simp; omega
      rw [this]; exact h7
    · intro j b s' hb hs
      cases j with
      | zero =>
        simp only [List.getElem?_cons_zero, Option.some.injEq] at hb hs
        subst hb; subst hs
        exact ⟨h4, q, h2, h3⟩
      | succ j =>
        simp only [List.getElem?_cons_succ] at hb hs
        have := h8 j b s' hb hs
        rwa [show i + 1 + j = i + (j + 1) by omega] at this

theorem run_beyond {r : Recording X} {n : Nat} (h : WellFormed r n) (hn : 0 < n) :
    ∀ (as : List (Quat ℝ)) (i : Nat) (e : Env ρ X), Inv r n i e → i < n → n ≤ i + as.length →
      run as e = .error .index := by
  intro as
  induction as with
  | nil => intro i e he h1 h2; simp at h2; omega
  | cons a as ih =>
    intro i e he h1 h2
    simp only [List.length_cons] at h2
    by_cases hc : n ≤ i + 1
    · simp only [run, step_beyond h hn hc he a, bind, Except.bind]
    · obtain ⟨s, q, h3, -⟩ := step_ok h (by omega) he a
      simp only [run, h3, ih (i + 1) _ (step_inv he a) (by omega) (by omega), bind, Except.bind]

/-- the state of the random number generator that `reset` draws from -/
def rngOf (N : NpRandom ρ) (seed : Option Nat) (e : Env ρ X) : ρ := (seed.map N.seeded).getD e.np_random

theorem reset_ok (N : NpRandom ρ) (gen : Nat → Recording X) (seed : Option Nat) (e : Env ρ X) {n : Nat} (hn : 0 < n)
    (h : WellFormed (gen (N.integers (rngOf N seed e)).1) n) :
    ∃ e0 o q, reset N gen seed e = .ok (e0, o, q) ∧ Inv (gen (N.integers (rngOf N seed e)).1) n 0 e0 ∧
      e0.action = e.action ∧ e0.np_random = (N.integers (rngOf N seed e)).2 ∧
      ObsAt (gen (N.integers (rngOf N seed e)).1) 0 o ∧
      (gen (N.integers (rngOf N seed e)).1).truth[0]? = some q := by
  obtain ⟨obs, h1, h2, h3⟩ := observations_ok h
  generalize hR : rngOf N seed e = g at h h1 h3 ⊢
  generalize hr : gen (N.integers g).1 = r at h h1 h3 ⊢
  let e0 : Env ρ X := ⟨(N.integers g).2, r.xs, r.truth, n, obs, 0, e.action⟩
  have he0 : Inv r n 0 e0 := ⟨rfl, rfl, rfl, rfl, h1⟩
  obtain ⟨o, q, h4, h5, h6⟩ := get_obs_info_ok h hn he0
  refine ⟨e0, o, q, ?_, he0, rfl, rfl, h5, h6⟩
  have : reset N gen seed e = (do
      let obs ← observations r r.truth.length
      let out ← get_obs_info (⟨(N.integers g).2, r.xs, r.truth, r.truth.length, obs, 0, e.action⟩ : Env ρ X)
      return ((⟨(N.integers g).2, r.xs, r.truth, r.truth.length, obs, 0, e.action⟩ : Env ρ X), out)) := by
    rw [← hr, ← hR]
    rfl
  rw [this, h.truth, h1]
  show (do
      let out ← get_obs_info e0
      return (e0, out)) = _
  rw [h4]
  rfl

/-! ## Theorems -/

/-- C91: An episode. `reset` shows the twelve measurements and the truth of time 0. After that every action gives the
measurements and the truth of the next time and a reward between `-π` and `0`: minus the angle between the action
(whatever its length) and the truth of the time the agent last saw (angles below the tolerance may count as zero). An
episode never terminates and is truncated with the `n - 1`-st action. -/
theorem C91_episode (N : NpRandom ρ) (gen : Nat → Recording X) (seed : Option Nat) (e : Env ρ X) {n : Nat}
    (hn : 0 < n) (h : WellFormed (gen (N.integers (rngOf N seed e)).1) n) :
    ∃ e0 o q, reset N gen seed e = .ok (e0, o, q) ∧ ObsAt (gen (N.integers (rngOf N seed e)).1) 0 o ∧
      (gen (N.integers (rngOf N seed e)).1).truth[0]? = some q ∧
      ∀ as : List (Quat ℝ), as.length < n → ∃ e' ss, run as e0 = .ok (e', ss) ∧ ss.length = as.length ∧
        ∀ i a s, as[i]? = some a → ss[i]? = some s → Expected (gen (N.integers (rngOf N seed e)).1) n i a s := by
  obtain ⟨e0, o, q, h1, h2, -, -, h3, h4⟩ := reset_ok N gen seed e hn h
  refine ⟨e0, o, q, h1, h3, h4, fun as hl => ?_⟩
  obtain ⟨e', ss, h5, h6, -, h7⟩ := run_ok h as 0 e0 h2 (by omega)
  refine ⟨e', ss, h5, h6, fun i a s ha hs => ?_⟩
  have := (h7 i a s ha hs).1
  rwa [Nat.zero_add] at this

/-- C91: Whoever goes on after the truncation gets an `IndexError`. -/
theorem C91_beyond (N : NpRandom ρ) (gen : Nat → Recording X) (seed : Option Nat) (e : Env ρ X) {n : Nat}
    (hn : 0 < n) (h : WellFormed (gen (N.integers (rngOf N seed e)).1) n) :
    ∃ e0 o, reset N gen seed e = .ok (e0, o) ∧ ∀ as : List (Quat ℝ), n ≤ as.length → run as e0 = .error .index := by
  obtain ⟨e0, o, q, h1, h2, -⟩ := reset_ok N gen seed e hn h
  exact ⟨e0, _, h1, fun as hl => run_beyond h hn as 0 e0 h2 hn (by omega)⟩

theorem scaled_reward (q a : Quat ℝ) (hq : q.IsUnit) {c : ℝ} (hc : c ≠ 0) :
    neg (abs_angle q (normalised ⟨c * a.w, c * a.x, c * a.y, c * a.z⟩)) = neg (abs_angle q (normalised a)) := by
  have hin : inner4 (⟨c * a.w, c * a.x, c * a.y, c * a.z⟩ : Quat ℝ) ⟨c * a.w, c * a.x, c * a.y, c * a.z⟩
      = c ^ 2 * inner4 a a := by
    simp only [inner4]; ring
  by_cases ha : inner4 a a = 0
  · rw [normalised_zero ha, normalised_zero (by rw [hin, ha, mul_zero])]
  · have hca : inner4 (⟨c * a.w, c * a.x, c * a.y, c * a.z⟩ : Quat ℝ) ⟨c * a.w, c * a.x, c * a.y, c * a.z⟩ ≠ 0 := by
      rw [hin]; exact mul_ne_zero (pow_ne_zero 2 hc) ha
    obtain ⟨u, hu, huu, -⟩ := normalised_some ha
    have hn := norm4_pos' ha
    have hn' : norm4 (⟨c * a.w, c * a.x, c * a.y, c * a.z⟩ : Quat ℝ) = |c| * norm4 a := by
      rw [norm4_inner, hin, sqrt_mul (sq_nonneg c), sqrt_sq_eq_abs, ← norm4_inner]
    have hu' : normalised ⟨c * a.w, c * a.x, c * a.y, c * a.z⟩ = some u ∨
        normalised ⟨c * a.w, c * a.x, c * a.y, c * a.z⟩ = some (-u) := by
      have hn2 := norm4_pos' hca
      unfold normalised at hu ⊢
      rw [if_neg hn.ne'] at hu
      rw [if_neg hn2.ne', hn']
      simp only [Option.some.injEq] at hu ⊢
      subst hu
      rcases lt_or_gt_of_ne hc with hc' | hc'
      · right
        rw [abs_of_neg hc']
        ext <;> simp <;> field_simp
      · left
        rw [abs_of_pos hc']
        ext <;> simp <;> field_simp
    rcases hu' with hu' | hu'
    · rw [hu', hu]
    · rw [hu', hu]
      simp only [abs_angle, neg]
      rw [(C14_angle_error_laws hq huu hq).2.2.2.2.2.1]

/-- C91: The results of `step` do not depend on the length and the sign of the action. -/
theorem C91_scale {e : Env ρ X} (he : ∀ q ∈ e.truth, q.IsUnit) (a : Quat ℝ) {c : ℝ} (hc : c ≠ 0) :
    (step ⟨c * a.w, c * a.x, c * a.y, c * a.z⟩ e).2 = (step a e).2 := by
  simp only [step]
  cases hq : clamped e.truth (e.t + 1 - 1) with
  | error x => rfl
  | ok q =>
    have hu : q.IsUnit := by
      apply he
      simp only [clamped, pyGet] at hq
      rw [if_neg (by split_ifs <;> omega)] at hq
      split at hq
      · rename_i h
        rw [← Except.ok.inj hq]
        exact List.mem_of_getElem? h
      · cases hq
    simp only [bind, Except.bind]
    rw [scaled_reward q a hu hc]
    rfl

/-- C91: The truth that `info` shows beside an observation is the one that the next action is compared with: whoever
repeats it gets the greatest possible reward, zero, at every time. -/
theorem C91_info_is_target (N : NpRandom ρ) (gen : Nat → Recording X) (seed : Option Nat) (e : Env ρ X) {n : Nat}
    (hn : 0 < n) (h : WellFormed (gen (N.integers (rngOf N seed e)).1) n) :
    ∃ e0 o q, reset N gen seed e = .ok (e0, o, q) ∧
      ∀ as : List (Quat ℝ), as.length < n → as[0]? = (as[0]?).map (fun _ => q) →
      ∃ e' ss, run as e0 = .ok (e', ss) ∧
        ((∀ (i : Nat) a s, as[i + 1]? = some a → ss[i]? = some s → a = s.info) →
          ∀ s ∈ ss, s.reward = .fin 0) := by
  obtain ⟨e0, o, q, h1, h2, -, -, -, h3⟩ := reset_ok N gen seed e hn h
  refine ⟨e0, o, q, h1, fun as hl h0 => ?_⟩
  obtain ⟨e', ss, h5, h6, -, h7⟩ := run_ok h as 0 e0 h2 (by omega)
  refine ⟨e', ss, h5, fun hp s hs => ?_⟩
  obtain ⟨i, hi, rfl⟩ := List.getElem_of_mem hs
  have hsi : ss[i]? = some ss[i] := List.getElem?_eq_getElem _
  have hai : as[i]? = some (as[i]'(by omega)) := List.getElem?_eq_getElem _
  obtain ⟨hE, t, ht, hr⟩ := h7 i _ _ hai hsi
  rw [Nat.zero_add] at ht
  have hat : as[i]'(by omega) = t := by
    cases i with
    | zero =>
      rw [hai] at h0
      rw [ht] at h3
      simp only [Option.map_some, Option.some.injEq] at h0 h3
      rw [h0, h3]
    | succ j =>
      have hsj : ss[j]? = some (ss[j]'(by omega)) := List.getElem?_eq_getElem _
      have haj : as[j]? = some (as[j]'(by omega)) := List.getElem?_eq_getElem _
      have := (h7 j _ _ haj hsj).1.info
      rw [Nat.zero_add, ht] at this
      rw [hp j _ _ hai hsj]
      exact (Option.some.inj this).symm
  have hu : t.IsUnit := h.unit t (List.mem_of_getElem? ht)
  have hin : inner4 t t = 1 := hu
  rw [hr, hat]
  have hnm : norm4 t = 1 := by rw [norm4_inner, hin, sqrt_one]
  have hno : normalised t = some t := by
    unfold normalised
    rw [if_neg (by rw [hnm]; norm_num), hnm]
    simp
  rw [hno]
  simp only [abs_angle, neg]
  rw [(C14_angle_error_laws hu hu hu).2.2.1, neg_zero]

/-- C91: Rewards are a function of the actions and of the truths before the last: the truth at the end of a recording
is never scored. -/
theorem C91_last_never_scored (N : NpRandom ρ) (gen gen' : Nat → Recording X) (seed : Option Nat) (e : Env ρ X)
    {n : Nat} (hn : 0 < n) (h : WellFormed (gen (N.integers (rngOf N seed e)).1) n)
    (h' : WellFormed (gen' (N.integers (rngOf N seed e)).1) n)
    (ht : ∀ i, i + 1 < n → (gen (N.integers (rngOf N seed e)).1).truth[i]? =
      (gen' (N.integers (rngOf N seed e)).1).truth[i]?) :
    ∃ e0 e0' o o', reset N gen seed e = .ok (e0, o) ∧ reset N gen' seed e = .ok (e0', o') ∧
      ∀ as : List (Quat ℝ), as.length < n → ∃ f f' ss ss', run as e0 = .ok (f, ss) ∧ run as e0' = .ok (f', ss') ∧
        ss.map StepResult.reward = ss'.map StepResult.reward := by
  obtain ⟨e0, o, q, r1, r2, -⟩ := reset_ok N gen seed e hn h
  obtain ⟨e0', o', q', r1', r2', -⟩ := reset_ok N gen' seed e hn h'
  refine ⟨e0, e0', _, _, r1, r1', fun as hl => ?_⟩
  obtain ⟨f, ss, h1, h2, -, h3⟩ := run_ok h as 0 e0 r2 (by omega)
  obtain ⟨f', ss', h4, h5, -, h6⟩ := run_ok h' as 0 e0' r2' (by omega)
  refine ⟨f, f', ss, ss', h1, h4, ?_⟩
  apply List.ext_getElem
  · simp [h2, h5]
  · intro i hi hi'
    simp only [List.length_map] at hi hi'
    have hai : as[i]? = some (as[i]'(by omega)) := List.getElem?_eq_getElem _
    obtain ⟨-, q, hq, hr⟩ := h3 i _ _ hai (List.getElem?_eq_getElem hi)
    obtain ⟨-, q', hq', hr'⟩ := h6 i _ _ hai (List.getElem?_eq_getElem hi')
    have := ht i (by omega)
    rw [Nat.zero_add] at hq hq'
    rw [hq, hq'] at this
    rw [List.getElem_map, List.getElem_map, hr, hr', Option.some.inj this]

/-- C91: A seed decides everything but the remembered action, whatever happened before. -/
theorem C91_seed (N : NpRandom ρ) (gen : Nat → Recording X) (s : Nat) (e e' : Env ρ X) :
    (reset N gen (some s) e).map (fun p => ({ p.1 with action := none }, p.2)) =
    (reset N gen (some s) e').map (fun p => ({ p.1 with action := none }, p.2)) := by
  simp only [reset, Option.map_some, Option.getD_some]
  generalize gen (N.integers (N.seeded s)).1 = r
  cases observations r r.truth.length with
  | error x => rfl
  | ok obs =>
    simp only [bind, Except.bind, get_obs_info]
    cases pyGet obs ((0 : Nat) : Int) with
    | error x => rfl
    | ok o =>
      cases pyGet r.truth ((0 : Nat) : Int) with
      | error x => rfl
      | ok q => rfl

/-- C91: The picture that `render` draws after the actions `as` and `a` is the pose of the new time; the orientation that
is drawn over it is the last action, with the first segment as reference. -/
theorem C91_picture (N : NpRandom ρ) (gen : Nat → Recording X) (seed : Option Nat) (e : Env ρ X) {n : Nat}
    (hn : 0 < n) (h : WellFormed (gen (N.integers (rngOf N seed e)).1) n) :
    ∃ e0 o, reset N gen seed e = .ok (e0, o) ∧
      ∀ (as : List (Quat ℝ)) (a : Quat ℝ), as.length + 1 < n → inner4 a a = 1 →
        ∃ e' ss x, run (as ++ [a]) e0 = .ok (e', ss) ∧
          (gen (N.integers (rngOf N seed e)).1).xs[as.length + 1]? = some x ∧
          render e' = .ok (.prediction x ⟨1, 0, 0, 0⟩ (some a)) := by
  obtain ⟨e0, o, q, r1, r2, -⟩ := reset_ok N gen seed e hn h
  refine ⟨e0, _, r1, fun as a hl ha => ?_⟩
  have hnm : norm4 a = 1 := by rw [norm4_inner, ha, sqrt_one]
  have hact : ∀ e : Env ρ X, (step a e).1.action = some (some a) := by
    intro e
    show some (normalised a) = _
    unfold normalised
    rw [if_neg (by rw [hnm]; norm_num), hnm]
    simp
  obtain ⟨e', ss, h1, -, h2, -⟩ := run_ok h (as ++ [a]) 0 e0 r2 (by simp; omega)
  have hx : (gen (N.integers (rngOf N seed e)).1).xs[as.length + 1]? =
      some ((gen (N.integers (rngOf N seed e)).1).xs[as.length + 1]'(by rw [h.xs]; omega)) :=
    List.getElem?_eq_getElem _
  refine ⟨e', ss, _, h1, hx, ?_⟩
  have hlast : ∀ (as : List (Quat ℝ)) (e : Env ρ X) e' ss, run (as ++ [a]) e = .ok (e', ss) →
      e'.action = some (some a) := by
    intro as
    induction as with
    | nil =>
      intro e e' ss hr
      simp only [List.nil_append, run, bind, Except.bind, pure, Except.pure] at hr
      cases hs : (step a e).2 with
      | error x => rw [hs] at hr; cases hr
      | ok s =>
        rw [hs] at hr
        simp only [Except.ok.injEq, Prod.mk.injEq] at hr
        rw [← hr.1, hact]
    | cons b as ih =>
      intro e e' ss hr
      simp only [List.cons_append, run, bind, Except.bind, pure, Except.pure] at hr
      cases hs : (step b e).2 with
      | error x => rw [hs] at hr; cases hr
      | ok s =>
        rw [hs] at hr
        cases hr2 : run (as ++ [a]) (step b e).1 with
        | error x => rw [hr2] at hr; cases hr
        | ok p =>
          rw [hr2] at hr
          simp only [Except.ok.injEq, Prod.mk.injEq] at hr
          rw [← hr.1]
          exact ih _ _ p.2 hr2
  have ht := h2.t
  simp only [List.length_append, List.length_cons, List.length_nil, Nat.zero_add] at ht
  unfold render
  rw [h2.xs, ht, pyGet_at hx, hlast as e0 e' ss h1]
  rfl

/-! ## Where the claims fail -/

/-- three samples in which the second segment turns by 180° after the first -/
def turning : Recording Nat where
  acc1 := [⟨1, 0, 0⟩, ⟨2, 0, 0⟩, ⟨3, 0, 0⟩]
  gyr1 := [⟨4, 0, 0⟩, ⟨5, 0, 0⟩, ⟨6, 0, 0⟩]
  acc2 := [⟨7, 0, 0⟩, ⟨8, 0, 0⟩, ⟨9, 0, 0⟩]
  gyr2 := [⟨0, 1, 0⟩, ⟨0, 2, 0⟩, ⟨0, 3, 0⟩]
  truth := [⟨1, 0, 0, 0⟩, ⟨0, 1, 0, 0⟩, ⟨0, 0, 1, 0⟩]
  xs := [10, 11, 12]

theorem turning_wf : WellFormed turning 3 := by
  refine ⟨rfl, rfl, rfl, rfl, rfl, rfl, ?_⟩
  intro q hq
  simp only [turning, List.mem_cons, List.not_mem_nil, or_false] at hq
  rcases hq with rfl | rfl | rfl <;> norm_num [Quat.IsUnit]

/-- one sample -/
def short : Recording Nat := ⟨[⟨0, 0, 9⟩], [⟨0, 0, 0⟩], [⟨0, 0, 9⟩], [⟨0, 0, 0⟩], [⟨1, 0, 0, 0⟩], [10]⟩

/-- a random number generator that counts -/
def counting : NpRandom Nat := ⟨fun s => s, fun g => (g + 1, g + 1)⟩

/-- a new environment -/
def fresh : Env Nat Nat := ⟨0, [], [], 0, [], 0, none⟩

/-- C91: The action zero lies in the action space `[-1, 1]⁴`, but its reward is `NaN`, outside of the reward range
`(-∞, 0]`. -/
theorem C91_zero_action_fails :
    ∃ e0 o, reset counting (fun _ => turning) none fresh = .ok (e0, o) ∧
      ∃ s, (step ⟨0, 0, 0, 0⟩ e0).2 = .ok s ∧ s.reward = .nan := by
  obtain ⟨e0, o, q, h1, h2, -⟩ := reset_ok counting (fun _ => turning) none fresh (by norm_num) turning_wf
  obtain ⟨s, q, h3, -, h4, -⟩ := step_ok turning_wf (by norm_num) h2 ⟨0, 0, 0, 0⟩
  refine ⟨e0, _, h1, s, h3, ?_⟩
  rw [h4, normalised_zero (by norm_num [inner4])]
  rfl

/-- C91: After a new `reset` the picture still shows the last action of the old episode. -/
theorem C91_stale_action_fails :
    ∃ e0 o e1 ss e2 o', reset counting (fun _ => turning) none fresh = .ok (e0, o) ∧
      run [⟨0, 0, 0, 1⟩] e0 = .ok (e1, ss) ∧ reset counting (fun _ => turning) none e1 = .ok (e2, o') ∧
      render e0 = .ok (.plain 10) ∧ render e2 = .ok (.prediction 10 ⟨1, 0, 0, 0⟩ (some ⟨0, 0, 0, 1⟩)) := by
  obtain ⟨e0, o, q, h1, h2, ha, -⟩ := reset_ok counting (fun _ => turning) none fresh (by norm_num) turning_wf
  obtain ⟨s, q, h3, -, h4, -⟩ := step_ok turning_wf (by norm_num) h2 ⟨0, 0, 0, 1⟩
  obtain ⟨e2, o', q', h5, h6, hb, -⟩ := reset_ok counting (fun _ => turning) none (step ⟨0, 0, 0, 1⟩ e0).1
    (by norm_num) turning_wf
  refine ⟨e0, _, (step ⟨0, 0, 0, 1⟩ e0).1, [s], e2, _, h1, ?_, h5, ?_, ?_⟩
  · simp only [run, h3, bind, Except.bind, pure, Except.pure]
  · unfold render
    rw [h2.xs, h2.t, ha]
    rfl
  · have hact : (step ⟨0, 0, 0, 1⟩ e0).1.action = some (some ⟨0, 0, 0, 1⟩) := by
      show some (normalised _) = _
      have : norm4 (⟨0, 0, 0, 1⟩ : Quat ℝ) = 1 := by norm_num [norm4]
      unfold normalised
      rw [if_neg (by rw [this]; norm_num), this]
      simp
    unfold render
    rw [h6.xs, h6.t, hb, hact]
    rfl

/-- C91: The picture lags: an agent whose action is exactly the truth (reward zero) is drawn with the orientation of the
time before over the pose of the new time, here 180° off. -/
theorem C91_picture_lags_fails :
    ∃ e0 o e1 s, reset counting (fun _ => turning) none fresh = .ok (e0, o) ∧
      run [⟨1, 0, 0, 0⟩] e0 = .ok (e1, [s]) ∧ s.reward = .fin 0 ∧ s.info = ⟨0, 1, 0, 0⟩ ∧
      turning.xs[1]? = some 11 ∧ render e1 = .ok (.prediction 11 ⟨1, 0, 0, 0⟩ (some ⟨1, 0, 0, 0⟩)) ∧
      angleBetween s.info ⟨1, 0, 0, 0⟩ = π := by
  obtain ⟨e0, o, q, h1, h2, ha, -⟩ := reset_ok counting (fun _ => turning) none fresh (by norm_num) turning_wf
  obtain ⟨s, q, h3, hq, h4, h5⟩ := step_ok turning_wf (by norm_num) h2 ⟨1, 0, 0, 0⟩
  have hn : normalised ⟨1, 0, 0, 0⟩ = some ⟨1, 0, 0, 0⟩ := by
    have : norm4 (⟨1, 0, 0, 0⟩ : Quat ℝ) = 1 := by norm_num [norm4]
    unfold normalised
    rw [if_neg (by rw [this]; norm_num), this]
    simp
  have hi : s.info = ⟨0, 1, 0, 0⟩ := (Option.some.inj h5.info).symm
  have hq' : q = ⟨1, 0, 0, 0⟩ := (Option.some.inj hq).symm
  have hu : (⟨1, 0, 0, 0⟩ : Quat ℝ).IsUnit := by norm_num [Quat.IsUnit]
  refine ⟨e0, _, (step ⟨1, 0, 0, 0⟩ e0).1, s, h1, ?_, ?_, hi, rfl, ?_, ?_⟩
  · simp only [run, h3, bind, Except.bind, pure, Except.pure]
  · rw [h4, hn, hq']
    simp only [abs_angle, neg]
    rw [(C14_angle_error_laws hu hu hu).2.2.1, neg_zero]
  · have hact : (step ⟨1, 0, 0, 0⟩ e0).1.action = some (some ⟨1, 0, 0, 0⟩) := by
      show some (normalised _) = _
      rw [hn]
    unfold render
    rw [(step_inv h2 _).xs, (step_inv h2 _).t, hact]
    rfl
  · rw [hi]
    norm_num [angleBetween, inner4]
    ring

/-- C91: An episode of one sample is never reported as truncated: every action raises. -/
theorem C91_short_fails :
    ∃ e0 o, reset counting (fun _ => short) none fresh = .ok (e0, o) ∧ ∀ a, (step a e0).2 = .error .index := by
  have hw : WellFormed short 1 := by
    refine ⟨rfl, rfl, rfl, rfl, rfl, rfl, ?_⟩
    intro q hq
    simp only [short, List.mem_cons, List.not_mem_nil, or_false] at hq
    subst hq
    norm_num [Quat.IsUnit]
  obtain ⟨e0, o, q, h1, h2, -⟩ := reset_ok counting (fun _ => short) none fresh (by norm_num) hw
  exact ⟨e0, _, h1, fun a => step_beyond hw (by norm_num) (by norm_num) h2 a⟩

/-- the hypotheses of `C91_episode` and of the theorems after it -/
example : ∃ e0 o q, reset counting (fun _ => turning) (some 7) fresh = .ok (e0, o, q) ∧ ObsAt turning 0 o ∧
    turning.truth[0]? = some q ∧ ∀ as : List (Quat ℝ), as.length < 3 → ∃ e' ss, run as e0 = .ok (e', ss) ∧
      ss.length = as.length ∧ ∀ i a s, as[i]? = some a → ss[i]? = some s → Expected turning 3 i a s :=
  C91_episode counting (fun _ => turning) (some 7) fresh (by norm_num) turning_wf

/-- the truths are different orientations -/
example : angleBetween ⟨1, 0, 0, 0⟩ ⟨0, 2, 0, 0⟩ = π := by
  norm_num [angleBetween, inner4]
  ring

end RingLib.saddle
