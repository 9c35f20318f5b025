import Verif.Props.MotionConfig
import Verif.Props.Trig

/-!
# C63, C64: the trajectories drawn for one joint
-/

namespace RingLib
open jcalc random
local notation "π" => Real.pi

section
variable {K : Type} (R : Rng K)

theorem knots_bounded (kn : List (ℝ × ℝ)) : ∃ M : ℝ, ∀ k ∈ kn, -M ≤ k.2 ∧ k.2 ≤ M := by
  induction kn with
  | nil => exact ⟨0, by simp⟩
  | cons a as ih =>
    obtain ⟨M, hM⟩ := ih
    refine ⟨max M |a.2|, ?_⟩
    intro k hk
    rcases List.mem_cons.mp hk with rfl | hk
    · exact ⟨by linarith [le_max_right M |k.2|, neg_abs_le k.2], (le_abs_self _).trans (le_max_right _ _)⟩
    · have := hM k hk
      have := le_max_left M |a.2|
      constructor <;> linarith

/-- what has to hold of a configuration for the draw functions to return -/
structure Drawable (c : MotionConfig) (dt : ℝ) : Prop where
  T : 0 ≤ c.T
  dt : 0 < dt
  t_min : 0 < c.t_min
  cor_t_min : 0 < c.cor_t_min
  bins : 1 ≤ c.cdf_bins_min
  bins' : ∀ k ∈ c.cdf_bins_max, c.cdf_bins_min ≤ k

/-- number of time steps: `N`, or `T / dt` rounded up -/
noncomputable def numSteps (T dt : ℝ) (N : Option Nat) : Nat := N.getD ⌈T / dt⌉.toNat

theorem sample_times_length (T dt : ℝ) (N : Option Nat) :
    (sample_times T dt N).length = numSteps T dt N := by simp [sample_times, numSteps]

/-- angles before wrapping -/
theorem angle_draw (A : AngleArgs) (ht : 0 < A.t_min) (hT : 0 ≤ A.T) (hTs : 0 < A.Ts)
    (hn : 1 ≤ A.cdf_bins_min) (hn' : ∀ k ∈ A.cdf_bins_max, A.cdf_bins_min ≤ k) (key_t key_ang : K) :
    ∃ kn q, IsKnots (AngStep R A) A.ANG_0 A.T kn ∧
      random_angle_over_time R A key_t key_ang =
        some (if A.range_of_motion then q else q.map maths.wrap_to_pi) ∧
      q.length = numSteps A.T A.Ts A.N ∧
      ∀ lo hi, (∀ k ∈ kn, lo ≤ k.2 ∧ k.2 ≤ hi) → ∀ y ∈ q, lo ≤ y ∧ y ≤ hi := by
  obtain ⟨kn, key, h1, h2⟩ := angle_knots_eq R A ht hT key_t key_ang
  obtain ⟨M, hM⟩ := knots_bounded kn
  obtain ⟨q, hq, hlen, -⟩ := resample_bounds R A.randomized_interpolation A.cdf_bins_min
    A.cdf_bins_max hn hn' A.interpolation_method hTs A.N h1 (angStep_gap R A)
    ht hT (⌊A.T / A.t_min⌋.toNat + 1) (by omega) key _ _ hM
  refine ⟨kn, q, h1, ?_, hlen.trans (sample_times_length _ _ _), ?_⟩
  · unfold random_angle_over_time
    rw [h2]
    show (do let q ← resample R _ _ _ _ _ _ _ _ _; pure (if _ then q else _)) = _
    rw [hq]
    rfl
  · intro lo hi hb
    obtain ⟨q', hq', -, hall⟩ := resample_bounds R A.randomized_interpolation A.cdf_bins_min
      A.cdf_bins_max hn hn' A.interpolation_method hTs A.N h1 (angStep_gap R A)
      ht hT (⌊A.T / A.t_min⌋.toNat + 1) (by omega) key _ _ hb
    rw [hq] at hq'
    cases hq'
    exact hall

theorem position_draw (A : PosArgs) (ht : 0 < A.t_min) (hT : 0 ≤ A.T) (hTs : 0 < A.Ts)
    (hn : 1 ≤ A.cdf_bins_min) (hn' : ∀ k ∈ A.cdf_bins_max, A.cdf_bins_min ≤ k) (key : K) :
    ∃ kn q, IsKnots (PosStep R A) A.POS_0 A.T kn ∧ random_position_over_time R A key = some q ∧
      q.length = numSteps A.T A.Ts A.N ∧
      ∀ lo hi, (∀ k ∈ kn, lo ≤ k.2 ∧ k.2 ≤ hi) → ∀ y ∈ q, lo ≤ y ∧ y ≤ hi := by
  obtain ⟨kn, key', h1, h2⟩ := position_knots_eq R A ht hT key
  obtain ⟨M, hM⟩ := knots_bounded kn
  obtain ⟨q, hq, hlen, -⟩ := resample_bounds R A.randomized_interpolation A.cdf_bins_min
    A.cdf_bins_max hn hn' A.interpolation_method hTs A.N h1 (posStep_gap R A)
    ht hT (⌊A.T / A.t_min⌋.toNat + 1) (by omega) key' _ _ hM
  refine ⟨kn, q, h1, ?_, hlen.trans (sample_times_length _ _ _), ?_⟩
  · unfold random_position_over_time
    rw [h2]
    exact hq
  · intro lo hi hb
    obtain ⟨q', hq', -, hall⟩ := resample_bounds R A.randomized_interpolation A.cdf_bins_min
      A.cdf_bins_max hn hn' A.interpolation_method hTs A.N h1 (posStep_gap R A)
      ht hT (⌊A.T / A.t_min⌋.toNat + 1) (by omega) key' _ _ hb
    rw [hq] at hq'
    cases hq'
    exact hall

/-! ## one angle, one position -/

theorem draw_rxyz_ok {c : MotionConfig} {dt : ℝ} (hc : Drawable c dt) (kt kv : K) (N : Option Nat)
    (rom fs : Bool) (it : Nat) (hrom : rom = false ∨ c.range_of_motion_hinge = false ∨
      (R.Ok ∧ ∀ t, 0 ≤ c.rom_halfsize.at t)) :
    ∃ q, _draw_rxyz R c kt kv dt N rom fs it = some q ∧ q.length = numSteps c.T dt N ∧
      ∀ φ ∈ q, -π ≤ φ ∧ φ ≤ π := by
  unfold _draw_rxyz
  set A := c.angleArgs (maths.wrap_to_pi (R.uniformIn (R.split kv 2 1) c.ang0_min c.ang0_max)) dt N
    rom fs it with hA
  obtain ⟨kn, q, h1, h2, h3, h4⟩ := angle_draw R A hc.t_min hc.T hc.dt hc.bins hc.bins' kt
    (R.split kv 2 0)
  refine ⟨_, h2, ?_, ?_⟩
  · have h3' : q.length = numSteps c.T dt N := h3
    split <;> simpa using h3'
  · intro φ hφ
    by_cases hr : A.range_of_motion = true
    · rw [if_pos hr] at hφ
      rcases hrom with rfl | h | ⟨hR, hh⟩
      · simp [hA, MotionConfig.angleArgs] at hr
      · simp [hA, MotionConfig.angleArgs, h] at hr
      have hw := maths.wrap_mem (R.uniformIn (R.split kv 2 1) c.ang0_min c.ang0_max)
      refine h4 (-π) π (knots_all h1 (fun x => -π ≤ x ∧ x ≤ π) ⟨hw.1, hw.2.le⟩ ?_) φ hφ
      rintro a b ⟨key, key', -, e⟩ -
      rw [e]
      apply next_phi_pi R hR _ hr
      show maths.wrap_to_pi _ - c.rom_halfsize.at a.1 ≤ π
      linarith [hw.2, hh a.1]
    · rw [if_neg hr] at hφ
      obtain ⟨y, -, rfl⟩ := List.mem_map.mp hφ
      exact ⟨(maths.wrap_mem y).1, (maths.wrap_mem y).2.le⟩

theorem draw_pxyz_ok {c : MotionConfig} {dt : ℝ} (hc : Drawable c dt) (kv : K) (N : Option Nat)
    (cor : Bool) :
    ∃ q, _draw_pxyz R c kv dt N cor = some q ∧ q.length = numSteps c.T dt N := by
  unfold _draw_pxyz
  obtain ⟨kn, q, h1, h2, h3, -⟩ := position_draw R (c.posArgs (R.uniformIn (R.split kv 2 1)
    (if cor then c.cor_pos0_min else c.pos0_min) (if cor then c.cor_pos0_max else c.pos0_max)) dt N
    cor) (by
      cases cor
      · exact hc.t_min
      · exact hc.cor_t_min) hc.T hc.dt hc.bins hc.bins' (R.split kv 2 0)
  exact ⟨q, h2, h3⟩

/-! ## rows -/

theorem column_length (a : List ℝ) : (column a).length = a.length := by simp [column]

theorem hcat_length {a b : List (List ℝ)} {n : Nat} (ha : a.length = n) (hb : b.length = n) :
    (hcat a b).length = n := by simp [hcat, ha, hb]

theorem mem_hcat {a b : List (List ℝ)} {r : List ℝ} (h : r ∈ hcat a b) :
    ∃ x ∈ a, ∃ y ∈ b, r = x ++ y := by
  unfold hcat at h
  induction a generalizing b with
  | nil => simp at h
  | cons x xs ih =>
    cases b with
    | nil => simp at h
    | cons y ys =>
      rw [List.zipWith_cons_cons] at h
      rcases List.mem_cons.mp h with rfl | h
      · exact ⟨x, by simp, y, by simp, rfl⟩
      · obtain ⟨x', hx', y', hy', rfl⟩ := ih h
        exact ⟨x', by simp [hx'], y', by simp [hy'], rfl⟩

theorem mem_column {a : List ℝ} {r : List ℝ} (h : r ∈ column a) : ∃ x ∈ a, r = [x] := by
  obtain ⟨x, hx, rfl⟩ := List.mem_map.mp h
  exact ⟨x, hx, rfl⟩

/-- an angle in `[-π, π]` -/
def AngleRange (φ : ℝ) : Prop := -π ≤ φ ∧ φ ≤ π

/-- What the coordinates of a joint have to look like: unit quaternion, angles in `[-π, π]`,
positions. -/
inductive RowOk : BuiltIn → List ℝ → Prop
  | free {w x y z p₁ p₂ p₃} : w ^ 2 + x ^ 2 + y ^ 2 + z ^ 2 = 1 → RowOk .free [w, x, y, z, p₁, p₂, p₃]
  | spherical {w x y z} : w ^ 2 + x ^ 2 + y ^ 2 + z ^ 2 = 1 → RowOk .spherical [w, x, y, z]
  | cor {w x y z p₁ p₂ p₃ c₁ c₂ c₃} : w ^ 2 + x ^ 2 + y ^ 2 + z ^ 2 = 1 →
      RowOk .cor [w, x, y, z, p₁, p₂, p₃, c₁, c₂, c₃]
  | p3d {p₁ p₂ p₃} : RowOk .p3d [p₁, p₂, p₃]
  | free_2d {φ p₁ p₂} : AngleRange φ → RowOk .free_2d [φ, p₁, p₂]
  | r {a φ} : AngleRange φ → RowOk (.r a) [φ]
  | p {a p} : RowOk (.p a) [p]
  | saddle {φ ψ} : AngleRange φ → AngleRange ψ → RowOk .saddle [φ, ψ]
  | frozen : RowOk .frozen []

theorem RowOk.width {b : BuiltIn} {r : List ℝ} (h : RowOk b r) : r.length = b.q_width := by
  cases h <;> rfl

theorem draw_spherical_ok {c : MotionConfig} {dt : ℝ} (hc : Drawable c dt) (kt kv : K)
    (N : Option Nat) : ∃ rows, _draw_spherical R c kt kv dt N = some rows ∧
      rows.length = numSteps c.T dt N ∧ ∀ r ∈ rows, RowOk .spherical r := by
  unfold _draw_spherical
  obtain ⟨q0, e0, l0, -⟩ := draw_rxyz_ok R hc (R.split kt 3 0) (R.split kv 3 0) N false true 5
    (Or.inl rfl)
  obtain ⟨q1, e1, l1, -⟩ := draw_rxyz_ok R hc (R.split kt 3 1) (R.split kv 3 1) N false true 5
    (Or.inl rfl)
  obtain ⟨q2, e2, l2, -⟩ := draw_rxyz_ok R hc (R.split kt 3 2) (R.split kv 3 2) N false true 5
    (Or.inl rfl)
  dsimp only
  rw [e0, e1, e2]
  refine ⟨_, rfl, ?_, ?_⟩
  · rw [List.length_map]
    exact hcat_length (hcat_length (by rw [column_length, l0]) (by rw [column_length, l1]))
      (by rw [column_length, l2])
  · intro r hr
    obtain ⟨e, -, rfl⟩ := List.mem_map.mp hr
    refine .spherical ?_
    have := C17_quat_euler_unit ⟨e.getD 0 0, e.getD 1 0, e.getD 2 0⟩ true (.z, .y, .x)
    unfold Quat.IsUnit at this
    linear_combination this

theorem drawable_p3d {c : MotionConfig} {dt : ℝ} (hc : Drawable c dt) (a : maths.Axis) :
    Drawable (c.p3d a) dt := by
  cases a <;> exact ⟨hc.T, hc.dt, hc.t_min, hc.cor_t_min, hc.bins, hc.bins'⟩

theorem p3d_T (c : MotionConfig) (a : maths.Axis) : (c.p3d a).T = c.T := by cases a <;> rfl

theorem draw_p3d_and_cor_ok {c : MotionConfig} {dt : ℝ} (hc : Drawable c dt) (kv : K)
    (N : Option Nat) (cor : Bool) : ∃ rows, _draw_p3d_and_cor R c kv dt N cor = some rows ∧
      rows.length = numSteps c.T dt N ∧ ∀ r ∈ rows, ∃ x y z, r = [x, y, z] := by
  unfold _draw_p3d_and_cor
  obtain ⟨q0, e0, l0⟩ := draw_pxyz_ok R (drawable_p3d hc .x) (R.split kv 3 0) N cor
  obtain ⟨q1, e1, l1⟩ := draw_pxyz_ok R (drawable_p3d hc .y) (R.split kv 3 1) N cor
  obtain ⟨q2, e2, l2⟩ := draw_pxyz_ok R (drawable_p3d hc .z) (R.split kv 3 2) N cor
  rw [p3d_T] at l0 l1 l2
  rw [e0, e1, e2]
  refine ⟨_, rfl, hcat_length (hcat_length (by rw [column_length, l0]) (by rw [column_length, l1]))
      (by rw [column_length, l2]), ?_⟩
  intro r hr
  obtain ⟨a, ha, b, hb, rfl⟩ := mem_hcat hr
  obtain ⟨a', ha', b', hb', rfl⟩ := mem_hcat ha
  obtain ⟨x, -, rfl⟩ := mem_column ha'
  obtain ⟨y, -, rfl⟩ := mem_column hb'
  obtain ⟨z, -, rfl⟩ := mem_column hb
  exact ⟨x, y, z, rfl⟩

theorem draw_free_ok {c : MotionConfig} {dt : ℝ} (hc : Drawable c dt) (kt kv : K)
    (N : Option Nat) : ∃ rows, _draw_free R c kt kv dt N = some rows ∧
      rows.length = numSteps c.T dt N ∧ ∀ r ∈ rows, RowOk .free r := by
  unfold _draw_free _draw_p3d
  obtain ⟨s, e1, l1, h1⟩ := draw_spherical_ok R hc kt (R.split kv 2 0) N
  obtain ⟨p, e2, l2, h2⟩ := draw_p3d_and_cor_ok R hc (R.split kv 2 1) N false
  dsimp only
  rw [e1, e2]
  refine ⟨_, rfl, hcat_length l1 l2, ?_⟩
  intro r hr
  obtain ⟨a, ha, b, hb, rfl⟩ := mem_hcat hr
  obtain ⟨x, y, z, rfl⟩ := h2 b hb
  cases h1 a ha with
  | spherical h => exact .free h

/-- **C63.** For every joint type, every configuration and every random stream the draw function
returns one row of joint coordinates per time step: as many numbers as the joint has coordinates,
unit quaternions, angles in `[-π, π]`. For `frozen` the number of steps has to be given or `T / dt` has
to be whole, see `C63_frozen_fails`. -/
theorem C63_rows {c : MotionConfig} {dt : ℝ} (hc : Drawable c dt) (hR : R.Ok)
    (hh : ∀ t, 0 ≤ c.rom_halfsize.at t) (kt kv : K) (N : Option Nat) (b : BuiltIn)
    (hb : b = .frozen → N = none → ∃ m : ℤ, c.T / dt = m) :
    ∃ rows, b.draw R c kt kv dt N = some rows ∧ rows.length = numSteps c.T dt N ∧
      ∀ r ∈ rows, r.length = b.q_width ∧ RowOk b r := by
  suffices ∃ rows, b.draw R c kt kv dt N = some rows ∧ rows.length = numSteps c.T dt N ∧
      ∀ r ∈ rows, RowOk b r by
    obtain ⟨rows, h1, h2, h3⟩ := this
    exact ⟨rows, h1, h2, fun r hr => ⟨(h3 r hr).width, h3 r hr⟩⟩
  cases b with
  | free => exact draw_free_ok R hc kt kv N
  | spherical => exact draw_spherical_ok R hc kt kv N
  | p3d =>
    obtain ⟨rows, h1, h2, h3⟩ := draw_p3d_and_cor_ok R hc kv N false
    refine ⟨rows, h1, h2, fun r hr => ?_⟩
    obtain ⟨x, y, z, rfl⟩ := h3 r hr
    exact .p3d
  | cor =>
    obtain ⟨s, e1, l1, h1⟩ := draw_free_ok R hc kt (R.split kv 2 0) N
    obtain ⟨p, e2, l2, h2⟩ := draw_p3d_and_cor_ok R hc (R.split kv 2 1) N true
    refine ⟨hcat s p, ?_, hcat_length l1 l2, ?_⟩
    · show _draw_cor R c kt kv dt N = _
      unfold _draw_cor
      dsimp only
      rw [e1, e2]
      rfl
    · intro r hr
      obtain ⟨a, ha, b, hb, rfl⟩ := mem_hcat hr
      obtain ⟨x, y, z, rfl⟩ := h2 b hb
      cases h1 a ha with
      | free h => exact .cor h
  | free_2d =>
    obtain ⟨s, e1, l1, h1⟩ := draw_rxyz_ok R hc kt (R.split kv 2 0) N false true 5 (Or.inl rfl)
    obtain ⟨p, e2, l2, h2⟩ := draw_p3d_and_cor_ok R hc (R.split kv 2 1) N false
    refine ⟨hcat (column s) (p.map (List.take 2)), ?_, hcat_length (by rw [column_length, l1])
      (by rw [List.length_map, l2]), ?_⟩
    · show _draw_free_2d R c kt kv dt N = _
      unfold _draw_free_2d _draw_p3d
      dsimp only
      rw [e1, e2]
      rfl
    · intro r hr
      obtain ⟨a, ha, b, hb, rfl⟩ := mem_hcat hr
      obtain ⟨φ, hφ, rfl⟩ := mem_column ha
      obtain ⟨b', hb', rfl⟩ := List.mem_map.mp hb
      obtain ⟨x, y, z, rfl⟩ := h2 b' hb'
      exact .free_2d (h1 φ hφ)
  | r a =>
    obtain ⟨s, e1, l1, h1⟩ := draw_rxyz_ok R hc kt kv N true false 5 (Or.inr (Or.inr ⟨hR, hh⟩))
    refine ⟨column s, ?_, by rw [column_length, l1], ?_⟩
    · show (_draw_rxyz R c kt kv dt N).map column = _
      rw [e1]
      rfl
    · intro r hr
      obtain ⟨φ, hφ, rfl⟩ := mem_column hr
      exact .r (h1 φ hφ)
  | p a =>
    obtain ⟨s, e1, l1⟩ := draw_pxyz_ok R hc kv N false
    refine ⟨column s, ?_, by rw [column_length, l1], ?_⟩
    · show (_draw_pxyz R c kv dt N).map column = _
      rw [e1]
      rfl
    · intro r hr
      obtain ⟨φ, hφ, rfl⟩ := mem_column hr
      exact .p
  | saddle =>
    obtain ⟨s, e1, l1, h1⟩ := draw_rxyz_ok R hc (R.split kt 2 0) (R.split kv 2 0) N false false 5
      (Or.inl rfl)
    obtain ⟨p, e2, l2, h2⟩ := draw_rxyz_ok R hc (R.split kt 2 1) (R.split kv 2 1) N false false 5
      (Or.inl rfl)
    refine ⟨hcat (column s) (column p), ?_, hcat_length (by rw [column_length, l1])
      (by rw [column_length, l2]), ?_⟩
    · show _draw_saddle R c kt kv dt N = _
      unfold _draw_saddle
      dsimp only
      rw [e1, e2]
      rfl
    · intro r hr
      obtain ⟨a, ha, b, hb, rfl⟩ := mem_hcat hr
      obtain ⟨φ, hφ, rfl⟩ := mem_column ha
      obtain ⟨ψ, hψ, rfl⟩ := mem_column hb
      exact .saddle (h1 φ hφ) (h2 ψ hψ)
  | frozen =>
    refine ⟨_, rfl, ?_, ?_⟩
    · cases N with
      | some n => simp [_draw_frozen, numSteps]
      | none =>
        obtain ⟨m, hm⟩ := hb rfl rfl
        simp [_draw_frozen, numSteps, hm]
    intro r hr
    rw [List.eq_of_mem_replicate hr]
    exact .frozen

theorem standard_drawable : Drawable {} 0.01 := by
  constructor <;> norm_num
  intro k hk
  cases hk

/-- The standard configuration can be drawn, 6000 steps of 0.01 s. -/
example (b : BuiltIn) : ∃ rows, b.draw (constRng 0.5 true) {} () () 0.01 (some 6000) = some rows ∧
    rows.length = 6000 ∧ ∀ r ∈ rows, r.length = b.q_width ∧ RowOk b r :=
  C63_rows _ standard_drawable (constRng_ok 0.5 true (by norm_num) (by norm_num))
    (by intro t; show (0 : ℝ) ≤ 2 * π; linarith [Real.pi_pos]) _ _ _ _ (by simp)

/-- **C63, the part that does not hold.** Without a given number of steps a frozen joint gets `T / dt`
rounded down, every other joint `T / dt` rounded up; a system with both can then not be drawn. -/
theorem C63_frozen_fails : ∃ (c : MotionConfig) (dt : ℝ), Drawable c dt ∧ _is_feasible_config1 c ∧
    ∀ (R : Rng K) (kt kv : K), ∃ frozen hinge, BuiltIn.frozen.draw R c kt kv dt none = some frozen ∧
      (BuiltIn.p .x).draw R c kt kv dt none = some hinge ∧ frozen.length ≠ hinge.length := by
  have hd : Drawable { T := 1.5 } 1 := by
    constructor <;> norm_num
    intro k hk
    cases hk
  refine ⟨{ T := 1.5 }, 1, hd, ?_, ?_⟩
  · have := Real.pi_gt_three
    simp only [_is_feasible_config1, dx_deltax_check, inside_box_checks, TDF.at, ge_iff_le, not_lt]
    refine ⟨⟨?_, ?_⟩, ⟨?_, ?_⟩, ?_, ?_, ?_, ?_, ?_⟩ <;> first | norm_num | skip
    · rw [le_div_iff₀ (by norm_num)]; linarith
    · rw [le_div_iff₀ (by norm_num)]; linarith
    · linarith
  · intro R kt kv
    obtain ⟨s, e1, l1⟩ := draw_pxyz_ok R hd kv none false
    refine ⟨_, column s, rfl, ?_, ?_⟩
    · show (_draw_pxyz R _ kv 1 none).map column = _
      rw [e1]
      rfl
    · rw [column_length, l1]
      have h1 : ⌈(1.5 : ℝ)⌉ = 2 := by rw [Int.ceil_eq_iff]; norm_num
      have h2 : ⌊(1.5 : ℝ)⌋ = 1 := by rw [Int.floor_eq_iff]; norm_num
      simp [_draw_frozen, numSteps, h1, h2]

/-! ## no motion -/

theorem uniformIn_self (k : K) (x : ℝ) : R.uniformIn k x x = x := by
  simp [Rng.uniformIn, scaleU]

theorem clip_id {x : ℝ} (h1 : -π ≤ x) (h2 : x ≤ π) : _clip_to_pi x = x := by
  unfold _clip_to_pi
  rw [max_eq_left h1, min_eq_left h2]

theorem next_phi_still (A : RomArgs) (h1 : A.dang_min = 0) (h2 : A.dang_max = 0) (φ : ℝ)
    (hlo : A.rom_lower ≤ φ) (hhi : φ ≤ A.rom_upper) (hpi : -π ≤ φ ∧ φ ≤ π) (key : K) (dt : ℝ) :
    _next_phi R A φ key dt = φ := by
  unfold _next_phi
  simp only [h1, h2, mul_zero, zero_mul, add_zero, clip_id hpi.1 hpi.2, ite_self, min_self, max_self]
  rw [max_eq_left hlo, min_eq_left hhi, uniformIn_self]

theorem draw_rxyz_still {c : MotionConfig} {dt : ℝ} (hc : Drawable c dt) (kt kv : K) (N : Option Nat)
    (rom fs : Bool) (it : Nat) (hh : ∀ t, 0 ≤ c.rom_halfsize.at t)
    (h1 : ∀ t, (if fs then c.dang_min_free_spherical else c.dang_min).at t = 0)
    (h2 : ∀ t, (if fs then c.dang_max_free_spherical else c.dang_max).at t = 0) :
    ∃ q φ, _draw_rxyz R c kt kv dt N rom fs it = some q ∧ ∀ y ∈ q, y = φ := by
  unfold _draw_rxyz
  set A := c.angleArgs (maths.wrap_to_pi (R.uniformIn (R.split kv 2 1) c.ang0_min c.ang0_max)) dt N
    rom fs it with hA
  obtain ⟨kn, q, hk, hq, -, h4⟩ := angle_draw R A hc.t_min hc.T hc.dt hc.bins hc.bins' kt
    (R.split kv 2 0)
  have hw : -π ≤ A.ANG_0 ∧ A.ANG_0 < π := maths.wrap_mem _
  have hall : ∀ y ∈ q, y = A.ANG_0 := by
    intro y hy
    have := h4 A.ANG_0 A.ANG_0 (fun k hk' => ?_) y hy
    · exact le_antisymm this.2 this.1
    have := knots_all hk (fun x => x = A.ANG_0) rfl (by
      rintro a b ⟨key, key', -, e⟩ ha
      rw [e, ha]
      have h0 : 0 ≤ A.rom_halfsize a.1 := hh a.1
      exact next_phi_still R _ (h1 _) (h2 _) _ (by show A.ANG_0 - A.rom_halfsize a.1 ≤ _; linarith)
        (by show _ ≤ A.ANG_0 + A.rom_halfsize a.1; linarith) ⟨hw.1, hw.2.le⟩ _ _) k hk'
    exact ⟨this.ge, this.le⟩
  refine ⟨_, A.ANG_0, hq, ?_⟩
  intro y hy
  split at hy
  · exact hall y hy
  · obtain ⟨x, hx, rfl⟩ := List.mem_map.mp hy
    rw [hall x hx]
    exact maths.wrap_id hw.1 hw.2

theorem draw_pxyz_still {c : MotionConfig} {dt : ℝ} (hc : Drawable c dt) (kv : K) (N : Option Nat)
    (h1 : ∀ t, c.dpos_min.at t = 0) (h2 : ∀ t, c.dpos_max.at t = 0) :
    ∃ q x, _draw_pxyz R c kv dt N = some q ∧ ∀ y ∈ q, y = x := by
  unfold _draw_pxyz
  set A := c.posArgs (R.uniformIn (R.split kv 2 1) c.pos0_min c.pos0_max) dt N false with hA
  obtain ⟨kn, q, hk, hq, -, h4⟩ := position_draw R A hc.t_min hc.T hc.dt hc.bins hc.bins'
    (R.split kv 2 0)
  refine ⟨q, A.POS_0, hq, ?_⟩
  intro y hy
  have := h4 A.POS_0 A.POS_0 (fun k hk' => ?_) y hy
  · exact le_antisymm this.2 this.1
  have := knots_all hk (fun x => x = A.POS_0) rfl (by
    rintro a b ⟨key, key', -, e⟩ ha
    have hcand : ∀ t k, posCand R A a t k = A.POS_0 := by
      intro t k
      have e1 : A.dpos_min a.1 = 0 := h1 _
      have e2 : A.dpos_max a.1 = 0 := h2 _
      unfold posCand
      rw [e1, e2, uniformIn_self, ha]
      ring
    rcases e with ⟨-, e | ⟨j, -, e⟩⟩ | ⟨-, e⟩
    · rw [e, ha]
    · rw [e, hcand]
    · rw [e, hcand]) k hk'
  exact ⟨this.ge, this.le⟩

theorem hcat_const {a b : List (List ℝ)} {x y : List ℝ} (ha : ∀ r ∈ a, r = x) (hb : ∀ r ∈ b, r = y) :
    ∀ r ∈ hcat a b, r = x ++ y := by
  intro r hr
  obtain ⟨u, hu, v, hv, rfl⟩ := mem_hcat hr
  rw [ha u hu, hb v hv]

theorem column_const {a : List ℝ} {x : ℝ} (ha : ∀ r ∈ a, r = x) : ∀ r ∈ column a, r = [x] := by
  intro r hr
  obtain ⟨u, hu, rfl⟩ := mem_column hr
  rw [ha u hu]

/-- the speeds that `to_nomotion_config` sets to zero -/
structure Still (c : MotionConfig) : Prop where
  dang_min : ∀ t, c.dang_min.at t = 0
  dang_max : ∀ t, c.dang_max.at t = 0
  dang_min_fs : ∀ t, c.dang_min_free_spherical.at t = 0
  dang_max_fs : ∀ t, c.dang_max_free_spherical.at t = 0
  dpos_min : ∀ t, c.dpos_min.at t = 0
  dpos_max : ∀ t, c.dpos_max.at t = 0

theorem draw_spherical_still {c : MotionConfig} {dt : ℝ} (hc : Drawable c dt) (hs : Still c)
    (hh : ∀ t, 0 ≤ c.rom_halfsize.at t) (kt kv : K) (N : Option Nat) :
    ∃ rows r0, _draw_spherical R c kt kv dt N = some rows ∧ ∀ r ∈ rows, r = r0 := by
  unfold _draw_spherical
  have h := fun j => draw_rxyz_still R hc (R.split kt 3 j) (R.split kv 3 j) N false true 5 hh
    hs.dang_min_fs hs.dang_max_fs
  obtain ⟨q0, x0, e0, c0⟩ := h 0
  obtain ⟨q1, x1, e1, c1⟩ := h 1
  obtain ⟨q2, x2, e2, c2⟩ := h 2
  dsimp only
  rw [e0, e1, e2]
  refine ⟨_, quatList (maths.quat_euler ⟨x0, x1, x2⟩), rfl, ?_⟩
  intro r hr
  obtain ⟨e, he, rfl⟩ := List.mem_map.mp hr
  rw [hcat_const (hcat_const (column_const c0) (column_const c1)) (column_const c2) e he]
  rfl

theorem still_p3d {c : MotionConfig} (hs : Still c) (a : maths.Axis) : Still (c.p3d a) := by
  cases a <;> exact ⟨hs.dang_min, hs.dang_max, hs.dang_min_fs, hs.dang_max_fs, hs.dpos_min, hs.dpos_max⟩

theorem draw_p3d_still {c : MotionConfig} {dt : ℝ} (hc : Drawable c dt) (hs : Still c)
    (kv : K) (N : Option Nat) :
    ∃ rows r0, _draw_p3d R c kv dt N = some rows ∧ ∀ r ∈ rows, r = r0 := by
  unfold _draw_p3d _draw_p3d_and_cor
  have h := fun a j => draw_pxyz_still R (drawable_p3d hc a) (R.split kv 3 j) N
    (still_p3d hs a).dpos_min (still_p3d hs a).dpos_max
  obtain ⟨q0, x0, e0, c0⟩ := h .x 0
  obtain ⟨q1, x1, e1, c1⟩ := h .y 1
  obtain ⟨q2, x2, e2, c2⟩ := h .z 2
  rw [e0, e1, e2]
  exact ⟨_, _, rfl, hcat_const (hcat_const (column_const c0) (column_const c1)) (column_const c2)⟩

/-- **C64.** What `to_nomotion_config` returns is feasible, has all speeds of joint coordinates (other
than those of the centre of rotation) zero and differs from the original in nothing else but
`delta_ang_min` and `delta_ang_min_free_spherical`. -/
theorem C64_config (c n : MotionConfig) (h : c.to_nomotion_config = .ok n) :
    _is_feasible_config1 n ∧ Still n ∧
    n = { c with dang_min := .const 0, dang_max := .const 0, dang_min_free_spherical := .const 0,
                 dang_max_free_spherical := .const 0, dpos_min := .const 0, dpos_max := .const 0,
                 delta_ang_min := .const 0, delta_ang_min_free_spherical := .const 0 } := by
  classical
  unfold MotionConfig.to_nomotion_config at h
  dsimp only at h
  set n' : MotionConfig := { c with
    dang_min := .const 0
    dang_max := .const 0
    delta_ang_min := .const 0
    dang_min_free_spherical := .const 0
    dang_max_free_spherical := .const 0
    delta_ang_min_free_spherical := .const 0
    dpos_min := .const 0
    dpos_max := .const 0 } with hn'
  by_cases hf : _is_feasible_config1 n'
  · rw [System.pyAssert_true hf, System.ok_bind] at h
    have h' : n' = n := Except.ok.inj h
    rw [← h', hn']
    exact ⟨hf, ⟨fun _ => rfl, fun _ => rfl, fun _ => rfl, fun _ => rfl, fun _ => rfl, fun _ => rfl⟩, rfl⟩
  · rw [System.pyAssert_false hf] at h
    cases h

/-- **C64 (partial).** With such a configuration every joint but `cor` stands still: all rows of the
drawn trajectory are the same, for every stream. Missing: `cor`, for which it is false
(`C64_cor_fails`). -/
theorem C64_still_partial {c n : MotionConfig} {dt : ℝ} (h : c.to_nomotion_config = .ok n)
    (hc : Drawable c dt) (hh : ∀ t, 0 ≤ c.rom_halfsize.at t) (kt kv : K) (N : Option Nat)
    (b : BuiltIn) (hb : b ≠ .cor) :
    ∃ rows r0, b.draw R n kt kv dt N = some rows ∧ ∀ r ∈ rows, r = r0 := by
  obtain ⟨-, hs, e⟩ := C64_config c n h
  have hd : Drawable n dt := by
    rw [e]
    exact ⟨hc.T, hc.dt, hc.t_min, hc.cor_t_min, hc.bins, hc.bins'⟩
  have hhn : ∀ t, 0 ≤ n.rom_halfsize.at t := by rw [e]; exact hh
  clear e h
  cases b with
  | cor => exact absurd rfl hb
  | free =>
    obtain ⟨s, s0, e1, c1⟩ := draw_spherical_still R hd hs hhn kt (R.split kv 2 0) N
    obtain ⟨p, p0, e2, c2⟩ := draw_p3d_still R hd hs (R.split kv 2 1) N
    refine ⟨hcat s p, _, ?_, hcat_const c1 c2⟩
    show _draw_free R n kt kv dt N = _
    unfold _draw_free
    dsimp only
    rw [e1, e2]
    rfl
  | spherical => exact draw_spherical_still R hd hs hhn kt kv N
  | p3d => exact draw_p3d_still R hd hs kv N
  | free_2d =>
    obtain ⟨s, s0, e1, c1⟩ := draw_rxyz_still R hd kt (R.split kv 2 0) N false true 5 hhn
      hs.dang_min_fs hs.dang_max_fs
    obtain ⟨p, p0, e2, c2⟩ := draw_p3d_still R hd hs (R.split kv 2 1) N
    refine ⟨hcat (column s) (p.map (List.take 2)), _, ?_, hcat_const (column_const c1)
      (y := p0.take 2) ?_⟩
    · show _draw_free_2d R n kt kv dt N = _
      unfold _draw_free_2d
      dsimp only
      rw [e1, e2]
      rfl
    · intro r hr
      obtain ⟨r', hr', rfl⟩ := List.mem_map.mp hr
      rw [c2 r' hr']
  | r a =>
    obtain ⟨s, s0, e1, c1⟩ := draw_rxyz_still R hd kt kv N true false 5 hhn hs.dang_min hs.dang_max
    refine ⟨column s, _, ?_, column_const c1⟩
    show (_draw_rxyz R n kt kv dt N).map column = _
    rw [e1]
    rfl
  | p a =>
    obtain ⟨s, s0, e1, c1⟩ := draw_pxyz_still R hd kv N hs.dpos_min hs.dpos_max
    refine ⟨column s, _, ?_, column_const c1⟩
    show (_draw_pxyz R n kv dt N).map column = _
    rw [e1]
    rfl
  | saddle =>
    obtain ⟨s, s0, e1, c1⟩ := draw_rxyz_still R hd (R.split kt 2 0) (R.split kv 2 0) N false false 5
      hhn hs.dang_min hs.dang_max
    obtain ⟨p, p0, e2, c2⟩ := draw_rxyz_still R hd (R.split kt 2 1) (R.split kv 2 1) N false false 5
      hhn hs.dang_min hs.dang_max
    refine ⟨hcat (column s) (column p), _, ?_, hcat_const (column_const c1) (column_const c2)⟩
    show _draw_saddle R n kt kv dt N = _
    unfold _draw_saddle
    dsimp only
    rw [e1, e2]
    rfl
  | frozen =>
    refine ⟨_, [], rfl, ?_⟩
    intro r hr
    exact List.eq_of_mem_replicate hr

end

/-- a trajectory of 1.5 s in steps of 1 s whose centre of rotation moves at 0.1 to 0.3 m/s -/
noncomputable def corConfig : MotionConfig :=
  { T := 1.5, cor_t_min := 1, cor_t_max := .const 3, cor_dpos_min := .const 0.1
    cor_dpos_max := .const 0.3 }

theorem cor_moves (c : MotionConfig) (hT : c.T = 1.5) (h1 : c.cor_t_min = 1)
    (h2 : c.cor_t_max = .const 3) (h3 : c.cor_dpos_min = .const 0.1)
    (h4 : c.cor_dpos_max = .const 0.3) (h5 : c.cor_pos0_min = 0) (h6 : c.cor_pos0_max = 0)
    (h7 : c.randomized_interpolation_position = false) :
    _draw_pxyz (constRng 0.5 false) c () 1 none true = some [0, 0.2] := by
  unfold _draw_pxyz
  have e0 : (constRng 0.5 false).uniformIn () c.cor_pos0_min c.cor_pos0_max = 0 := by
    rw [h5, h6, uniformIn_self]
  show random_position_over_time (constRng 0.5 false)
    (c.posArgs ((constRng 0.5 false).uniformIn () c.cor_pos0_min c.cor_pos0_max) 1 none true) () = _
  rw [e0]
  set A := c.posArgs 0 1 none true with hA
  have hAT : A.T = 1.5 := hT
  have hAt : A.t_min = 1 := h1
  have hAm : ∀ t, A.t_max t = 3 := by intro t; show c.cor_t_max.at t = 3; rw [h2]; rfl
  have hA1 : ∀ t, A.dpos_min t = 0.1 := by intro t; show c.cor_dpos_min.at t = _; rw [h3]; rfl
  have hA2 : ∀ t, A.dpos_max t = 0.3 := by intro t; show c.cor_dpos_max.at t = _; rw [h4]; rfl
  obtain ⟨kn, key, hk, hb⟩ := position_knots_eq (constRng 0.5 false) A (by rw [hAt]; norm_num)
    (by rw [hAT]; norm_num) ()
  have hkn := two_knots 0.4 hk hAT (by
    rintro y ⟨k, k', e1, h⟩
    have e1' : y.1 = 2 := by
      rw [e1, hAt, hAm]
      show (0 : ℝ) + scaleU 0.5 1 3 = 2
      unfold scaleU
      norm_num
    have hc : ∀ key, posCand (constRng 0.5 false) A (0, A.POS_0) y.1 key = 0.4 := by
      intro key
      unfold posCand
      rw [e1', hA1, hA2]
      show (0 : ℝ) + 1 * scaleU 0.5 0.1 0.3 * (2 - 0) = 0.4
      unfold scaleU
      norm_num
    have e2' : y.2 = 0.4 := by
      rcases h with ⟨hok', h | ⟨j, -, h⟩⟩ | ⟨-, h⟩
      · exfalso
        have := hok'.2.1
        rw [h, hA1] at this
        simp only [sub_self, zero_div, abs_zero] at this
        norm_num at this
      · rw [h, hc]
      · rw [h, hc]
    ext
    · exact e1'
    · exact e2')
  have e0' : A.POS_0 = 0 := rfl
  have hTs : A.Ts = 1 := rfl
  have hN : A.N = none := rfl
  have hri : A.randomized_interpolation = false := h7
  unfold random_position_over_time
  rw [hb, hkn]
  show resample _ _ _ _ _ _ _ _ _ _ = _
  unfold resample
  rw [hri, hAT, hTs, hN, sample_times_two, hAt, e0']
  have hrow := knotRow_two 0.4
  have h0 := (C33_cos [0, 2] [0, 0.4] (by norm_num) rfl).knot 0 (by simp) (by simp)
  have h1 := cosInterpolate_mid 0.4
  simp only [List.getElem_cons_zero] at h0
  rw [hrow]
  simp only [List.map_cons, List.map_nil, h0, h1, Bool.false_eq_true, if_false]
  norm_num

/-- **C64, the part that does not hold.** `to_nomotion_config` leaves `cor_dpos_min` and
`cor_dpos_max` as they are: a joint with a centre of rotation keeps moving. -/
theorem C64_cor_fails : ∃ (K : Type) (R : Rng K) (c n : MotionConfig) (k : K), R.Ok ∧
    Drawable c 1 ∧ c.to_nomotion_config = .ok n ∧
    ∃ rows, BuiltIn.cor.draw R n k k 1 none = some rows ∧ ∃ r ∈ rows, ∃ r' ∈ rows, r ≠ r' := by
  classical
  have hd : Drawable corConfig 1 := by
    constructor <;> norm_num [corConfig]
    intro k hk
    cases hk
  have hf : ∃ n, corConfig.to_nomotion_config = .ok n := by
    unfold MotionConfig.to_nomotion_config
    dsimp only
    rw [System.pyAssert_true]
    · exact ⟨_, rfl⟩
    have := Real.pi_pos
    simp only [_is_feasible_config1, dx_deltax_check, inside_box_checks, TDF.at, ge_iff_le, not_lt,
      corConfig]
    refine ⟨⟨?_, ?_⟩, ⟨?_, ?_⟩, ?_, ?_, ?_, ?_, ?_⟩ <;> first | norm_num | skip
    all_goals positivity
  obtain ⟨n, hn⟩ := hf
  obtain ⟨-, -, e⟩ := C64_config _ _ hn
  have hdn : Drawable n 1 := by
    rw [e]
    exact ⟨hd.T, hd.dt, hd.t_min, hd.cor_t_min, hd.bins, hd.bins'⟩
  refine ⟨Unit, constRng 0.5 false, corConfig, n, (), constRng_ok 0.5 false (by norm_num) (by norm_num),
    hd, hn, ?_⟩
  obtain ⟨f, e1, l1, -⟩ := draw_free_ok (constRng 0.5 false) hdn () () none
  have hT : numSteps n.T 1 none = 2 := by
    rw [e]
    show ⌈(1.5 : ℝ) / 1⌉.toNat = 2
    have : ⌈(1.5 : ℝ) / 1⌉ = 2 := by rw [Int.ceil_eq_iff]; norm_num
    rw [this]
    rfl
  rw [hT] at l1
  have hm : ∀ a, _draw_pxyz (constRng 0.5 false) (n.p3d a) () 1 none true = some [0, 0.2] := by
    intro a
    rw [e]
    cases a <;> exact cor_moves _ rfl rfl rfl rfl rfl rfl rfl rfl
  have hp : _draw_p3d_and_cor (constRng 0.5 false) n () 1 none true =
      some [[0, 0, 0], [0.2, 0.2, 0.2]] := by
    unfold _draw_p3d_and_cor
    show (do
      let px ← _draw_pxyz (constRng 0.5 false) (n.p3d .x) () 1 none true
      let py ← _draw_pxyz (constRng 0.5 false) (n.p3d .y) () 1 none true
      let pz ← _draw_pxyz (constRng 0.5 false) (n.p3d .z) () 1 none true
      pure (hcat (hcat (column px) (column py)) (column pz))) = _
    rw [hm, hm, hm]
    rfl
  match f, l1, e1 with
  | [a, b], _, e1 =>
    refine ⟨[a ++ [0, 0, 0], b ++ [0.2, 0.2, 0.2]], ?_, a ++ [0, 0, 0], by simp,
      b ++ [0.2, 0.2, 0.2], by simp, ?_⟩
    · show (do
        let q_free ← _draw_free (constRng 0.5 false) n () () 1 none
        let q_p3d ← _draw_p3d_and_cor (constRng 0.5 false) n () 1 none true
        pure (hcat q_free q_p3d)) = _
      rw [e1, hp]
      rfl
    · intro h
      have := List.append_inj_right' h rfl
      norm_num at this

end RingLib
