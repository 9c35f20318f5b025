import Verif.Model.MakeOptimizer
import Verif.Props.Optimizer
import Mathlib.Analysis.SpecialFunctions.Trigonometric.Bounds

/-!
# C92: the optimizer of the training
-/

namespace RingLib.ml

open Real

variable {σ ν : Type}

/-! ## Specification -/

/-- half a period of the cosine, from 1 at 0 to 0 at 1 -/
noncomputable def fade (x : ℝ) : ℝ := (1 + cos (π * x)) / 2

/-- All numbers are finite: the leaves of real numbers. -/
def Finite' (g : Leaves ℝ) (xs : List (List ℝ)) : Prop := g = xs.map fun p => p.map Fl.fin

/-- Euclidean length over all leaves -/
noncomputable def length2 (xs : List (List ℝ)) : ℝ := √((xs.map fun p => (p.map fun x => x * x).sum).sum)

/-- `c` times all numbers -/
def times (c : ℝ) (xs : List (List ℝ)) : List (List ℝ) := xs.map fun p => p.map (c * ·)

/-- Whether a gradient `g` is used after the history `gs`. -/
def Used (m : ℝ) (maxc warmup : Nat) (gs : List (Leaves ℝ)) (g : Leaves ℝ) : Prop :=
  Small m g ∨ maxc < largeRun m gs + 1 ∨ gs.length < warmup

open Classical in
/-- How many gradients of a history were used. -/
noncomputable def nUsed (m : ℝ) (maxc warmup : Nat) (gs : List (Leaves ℝ)) : Nat :=
  ((List.range gs.length).filter fun k => ∃ g, gs[k]? = some g ∧ Used m maxc warmup (gs.take k) g).length

/-! ## Schedules -/

theorem fade_zero : fade 0 = 1 := by simp [fade]

theorem fade_one : fade 1 = 0 := by simp [fade]

theorem fade_anti {x y : ℝ} (hx : 0 ≤ x) (hxy : x ≤ y) (hy : y ≤ 1) : fade y ≤ fade x := by
  have := cos_le_cos_of_nonneg_of_le_pi (x := π * x) (y := π * y) (by positivity)
    (by nlinarith [pi_pos]) (by nlinarith [pi_pos])
  unfold fade
  linarith

theorem fade_strict {x y : ℝ} (hx : 0 ≤ x) (hxy : x < y) (hy : y ≤ 1) : fade y < fade x := by
  have := cos_lt_cos_of_nonneg_of_le_pi (x := π * x) (y := π * y) (by positivity)
    (by nlinarith [pi_pos]) (by nlinarith [pi_pos])
  unfold fade
  linarith

theorem fade_lip (x y : ℝ) : |fade x - fade y| ≤ π / 2 * |x - y| := by
  have h := abs_cos_sub_cos_le (π * x) (π * y)
  have e1 : fade x - fade y = (cos (π * x) - cos (π * y)) / 2 := by unfold fade; ring
  have e2 : π * x - π * y = π * (x - y) := by ring
  rw [e2, abs_mul, abs_of_pos pi_pos] at h
  rw [e1, abs_div, abs_of_pos (by norm_num : (0 : ℝ) < 2)]
  linarith

theorem cosine_eq (init : ℝ) {n : Nat} (hn : 0 < n) (α : ℝ) :
    cosine_decay_schedule init n α = .ok fun k =>
      init * ((1 - α) * fade ((min k n : Nat) / (n : ℝ)) + α) := by
  unfold cosine_decay_schedule
  rw [if_neg (by omega)]
  congr 1
  funext k
  simp only [fade]
  rw [mul_div_assoc]
  norm_num
  left; left
  ring

theorem div_mem {k n : Nat} (h : k ≤ n) : (0 : ℝ) ≤ (k : ℝ) / n ∧ (k : ℝ) / n ≤ 1 :=
  ⟨by positivity, div_le_one_of_le₀ (by exact_mod_cast h) (by positivity)⟩

/-- C92: Without `cos_decay_twice` the learning rate is `lr` at first, falls strictly along half a period of the cosine
for `n_steps_per_episode * n_episodes` steps and then stays at `1e-7 * lr`. -/
theorem C92_schedule (lr : ℝ) (hlr : 0 < lr) (ne ns : Nat) (h : 0 < ns * ne) :
    ∃ f, schedule lr ne ns false = .ok f ∧ f 0 = lr ∧ (∀ k, ns * ne ≤ k → f k = 1e-7 * lr) ∧
      (∀ k, k < ns * ne → f (k + 1) < f k) ∧
      ∀ k, k ≤ ns * ne → f k = 1e-7 * lr + (lr - 1e-7 * lr) * fade ((k : ℝ) / (ns * ne : Nat)) := by
  have hf := cosine_eq lr h 1e-7
  refine ⟨_, by unfold schedule; rw [if_neg (by simp)]; exact hf, ?_, ?_, ?_, ?_⟩
  · simp [fade_zero]
  · intro k hk
    simp only [min_eq_right hk]
    rw [div_self (by positivity), fade_one]
    ring
  · intro k hk
    simp only [min_eq_left hk.le, min_eq_left (Nat.succ_le_of_lt hk)]
    have hp : (0 : ℝ) < (ns * ne : Nat) := by exact_mod_cast h
    have := fade_strict (div_mem hk.le).1 (y := ((k + 1 : Nat) : ℝ) / (ns * ne : Nat))
      (by apply div_lt_div_of_pos_right _ hp; push_cast; linarith) (div_mem (Nat.succ_le_of_lt hk)).2
    apply mul_lt_mul_of_pos_left _ hlr
    have : (1 - 1e-7 : ℝ) * fade (((k + 1 : Nat) : ℝ) / (ns * ne : Nat)) < (1 - 1e-7) * fade ((k : ℝ) / (ns * ne : Nat)) :=
      mul_lt_mul_of_pos_left this (by norm_num)
    linarith
  · intro k hk
    simp only [min_eq_left hk]
    ring

/-- C92: With `cos_decay_twice` the rate falls from `lr` to `lr / 100` in the first half of the steps and from there to
zero in the second; it never rises, and never changes by more than `lr * π / (2 * half)` from one step to the next. -/
theorem C92_schedule_twice (lr : ℝ) (hlr : 0 < lr) (ne ns : Nat) (h : 0 < ns * ne / 2) :
    ∃ f, schedule lr ne ns true = .ok f ∧ f 0 = lr ∧ f (ns * ne / 2) = lr / 100 ∧
      (∀ k, 2 * (ns * ne / 2) ≤ k → f k = 0) ∧
      (∀ k, k < 2 * (ns * ne / 2) → f (k + 1) < f k) ∧
      (∀ k, |f (k + 1) - f k| ≤ lr * (π / 2) / (ns * ne / 2 : Nat)) ∧
      (∀ k, k ≤ ns * ne / 2 → f k = lr / 100 + (lr - lr / 100) * fade ((k : ℝ) / (ns * ne / 2 : Nat))) ∧
      ∀ k, k ≤ ns * ne / 2 → f (ns * ne / 2 + k) = lr / 100 * fade ((k : ℝ) / (ns * ne / 2 : Nat)) := by
  generalize hN : ns * ne / 2 = N at h ⊢
  have hf1 := cosine_eq lr h 1e-2
  have hf2 := cosine_eq (lr * 1e-2) h 0
  have hp : (0 : ℝ) < N := by exact_mod_cast h
  obtain ⟨f, hf⟩ : ∃ f, f = join_schedules (fun k => lr * ((1 - 1e-2) * fade ((min k N : Nat) / (N : ℝ)) + 1e-2))
    (fun k => lr * 1e-2 * ((1 - 0) * fade ((min k N : Nat) / (N : ℝ)) + 0)) N := ⟨_, rfl⟩
  have hA : ∀ k, k ≤ N → f k = lr / 100 + (lr - lr / 100) * fade ((k : ℝ) / N) := by
    intro k hk
    rw [hf]
    unfold join_schedules
    split_ifs with hlt
    · dsimp only
      rw [min_eq_left hk]
      ring
    · have : k = N := by omega
      subst this
      simp [fade_zero, fade_one, div_self hp.ne']
      norm_num
      ring
  have hB : ∀ k, f (N + k) = lr / 100 * fade ((min k N : Nat) / N) := by
    intro k
    rw [hf]
    unfold join_schedules
    rw [if_neg (by omega), Nat.add_sub_cancel_left]
    ring
  have hB' : ∀ k, k ≤ N → f (N + k) = lr / 100 * fade ((k : ℝ) / N) := by
    intro k hk
    rw [hB, min_eq_left hk]
  have hstep : ∀ k : Nat, ((k + 1 : Nat) : ℝ) / N - (k : ℝ) / N = 1 / N := by
    intro k; push_cast; field_simp; ring
  refine ⟨f, ?_, ?_, ?_, ?_, ?_, ?_, hA, hB'⟩
  · unfold schedule
    simp only [if_true, hN, hf1, hf2, bind, Except.bind, pure, Except.pure]
    rw [hf]
  · rw [hA 0 (Nat.zero_le _)]
    simp [fade_zero]
  · rw [hA N le_rfl, div_self hp.ne', fade_one]
    ring
  · intro k hk
    obtain ⟨j, rfl⟩ := Nat.exists_eq_add_of_le (show N ≤ k by omega)
    rw [hB, min_eq_right (by omega), div_self hp.ne', fade_one, mul_zero]
  · intro k hk
    by_cases hkN : k < N
    · rw [hA k hkN.le, hA (k + 1) hkN]
      have h1 := fade_strict (div_mem hkN.le).1 (y := ((k + 1 : Nat) : ℝ) / N)
        (by have := hstep k; have : (0 : ℝ) < 1 / N := by positivity
            linarith [hstep k]) (div_mem hkN).2
      have : (lr - lr / 100) * fade (((k + 1 : Nat) : ℝ) / N) < (lr - lr / 100) * fade ((k : ℝ) / N) :=
        mul_lt_mul_of_pos_left h1 (by linarith)
      linarith
    · obtain ⟨j, rfl⟩ := Nat.exists_eq_add_of_le (show N ≤ k by omega)
      have hj : j < N := by omega
      rw [Nat.add_assoc, hB' j hj.le, hB' (j + 1) hj]
      have h1 := fade_strict (div_mem hj.le).1 (y := ((j + 1 : Nat) : ℝ) / N)
        (by have := hstep j; have : (0 : ℝ) < 1 / N := by positivity
            linarith [hstep j]) (div_mem hj).2
      exact mul_lt_mul_of_pos_left h1 (by linarith)
  · intro k
    have hb : lr * (π / 2) / N = lr * (π / 2 * (1 / N)) := by ring
    rw [hb]
    have hπ : 0 ≤ π / 2 * (1 / (N : ℝ)) := by have := pi_pos; positivity
    by_cases hkN : k < N
    · rw [hA k hkN.le, hA (k + 1) hkN]
      have h1 := fade_lip (((k + 1 : Nat) : ℝ) / N) ((k : ℝ) / N)
      rw [hstep k, abs_of_pos (by positivity : (0 : ℝ) < 1 / N)] at h1
      have e : lr / 100 + (lr - lr / 100) * fade (((k + 1 : Nat) : ℝ) / N) -
        (lr / 100 + (lr - lr / 100) * fade ((k : ℝ) / N)) =
        (lr - lr / 100) * (fade (((k + 1 : Nat) : ℝ) / N) - fade ((k : ℝ) / N)) := by ring
      rw [e, abs_mul, abs_of_pos (by linarith)]
      exact mul_le_mul (by linarith) h1 (abs_nonneg _) hlr.le
    · obtain ⟨j, rfl⟩ := Nat.exists_eq_add_of_le (show N ≤ k by omega)
      by_cases hj : j < N
      · rw [Nat.add_assoc, hB' j hj.le, hB' (j + 1) hj, ← mul_sub, abs_mul, abs_of_pos (by linarith)]
        have h1 := fade_lip (((j + 1 : Nat) : ℝ) / N) ((j : ℝ) / N)
        rw [hstep j, abs_of_pos (by positivity : (0 : ℝ) < 1 / N)] at h1
        exact mul_le_mul (by linarith) h1 (abs_nonneg _) hlr.le
      · rw [Nat.add_assoc, hB, hB, min_eq_right (by omega), min_eq_right (by omega), sub_self, abs_zero]
        positivity

/-- C92: Without steps (with `cos_decay_twice` without two steps) there is no optimizer. -/
theorem C92_no_steps (agc : ℝ → Leaves ℝ → Leaves ℝ → Leaves ℝ) (direction : GradTransform ℝ σ)
    (noise : GradTransform ℝ ν) (a : OptimizerArgs) :
    make_optimizer agc direction noise a = .error .value ↔
      (if a.cos_decay_twice then a.n_steps_per_episode * a.n_episodes < 2
        else a.n_steps_per_episode * a.n_episodes = 0) := by
  cases hc : a.cos_decay_twice
  · by_cases h : 0 < a.n_steps_per_episode * a.n_episodes
    · have := cosine_eq a.lr h 1e-7
      simp [make_optimizer, schedule, hc, this, bind, Except.bind, skip_large_update, -mul_eq_zero]
      omega
    · have : cosine_decay_schedule a.lr (a.n_steps_per_episode * a.n_episodes) 1e-7 = .error .value := if_pos h
      simp [make_optimizer, schedule, hc, this, bind, Except.bind, -mul_eq_zero]
      omega
  · by_cases h : 0 < a.n_steps_per_episode * a.n_episodes / 2
    · have h1 := cosine_eq a.lr h 1e-2
      have h2 := cosine_eq (a.lr * 1e-2) h 0
      simp only [make_optimizer, schedule, hc, h1, h2, bind, Except.bind, skip_large_update, pure, Except.pure,
        if_true, Bool.false_eq_true, if_false, reduceCtorEq, false_iff]
      omega
    · have : cosine_decay_schedule a.lr (a.n_steps_per_episode * a.n_episodes / 2) 1e-2 = .error .value := if_pos h
      simp only [make_optimizer, schedule, hc, this, bind, Except.bind, if_true, true_iff]
      omega

/-! ## Gradients -/

theorem sum_nan {l : List (Fl ℝ)} (h : Fl.nan ∈ l) : Fl.sum l = .nan := by
  have key : ∀ (l : List (Fl ℝ)), l.foldl Fl.add .nan = .nan := by
    intro l
    induction l with
    | nil => rfl
    | cons a l ih => simpa [Fl.add] using ih
  have : ∀ (l : List (Fl ℝ)) (a : Fl ℝ), Fl.nan ∈ l → l.foldl Fl.add a = .nan := by
    intro l
    induction l with
    | nil => intro a h; cases h
    | cons b l ih =>
      intro a h
      rcases List.mem_cons.1 h with rfl | h
      · rw [List.foldl_cons]
        have : Fl.add a .nan = .nan := by cases a <;> rfl
        rw [this, key]
      · exact ih _ h
  exact this l _ h

/-- a number or plus infinity -/
def NonNeg : Fl ℝ → Prop
  | .fin _ => True
  | .posInf => True
  | _ => False

theorem sum_inf {l : List (Fl ℝ)} (h : ∀ x ∈ l, NonNeg x) :
    NonNeg (Fl.sum l) ∧ (Fl.posInf ∈ l → Fl.sum l = .posInf) := by
  have : ∀ (l : List (Fl ℝ)) (a : Fl ℝ), NonNeg a → (∀ x ∈ l, NonNeg x) →
      NonNeg (l.foldl Fl.add a) ∧ (a = .posInf ∨ Fl.posInf ∈ l → l.foldl Fl.add a = .posInf) := by
    intro l
    induction l with
    | nil => intro a ha _; exact ⟨ha, by rintro (h | h); exacts [h, by cases h]⟩
    | cons b l ih =>
      intro a ha hl
      have hb := hl b (by simp)
      have hab : NonNeg (Fl.add a b) ∧ (a = .posInf ∨ b = .posInf → Fl.add a b = .posInf) := by
        cases a <;> cases b <;> simp_all [NonNeg, Fl.add]
      obtain ⟨h1, h2⟩ := ih _ hab.1 (fun x hx => hl x (List.mem_cons_of_mem _ hx))
      refine ⟨h1, fun h => h2 ?_⟩
      rcases h with h | h
      · exact .inl (hab.2 (.inl h))
      · rcases List.mem_cons.1 h with h | h
        · exact .inl (hab.2 (.inr h.symm))
        · exact .inr h
  obtain ⟨h1, h2⟩ := this l (.fin 0) trivial h
  exact ⟨h1, fun hm => h2 (.inr hm)⟩

theorem sumsq_nonneg (xs : List (List ℝ)) : 0 ≤ (xs.map fun p => (p.map fun x => x * x).sum).sum := by
  apply List.sum_nonneg
  intro y hy
  obtain ⟨p, -, rfl⟩ := List.mem_map.1 hy
  apply List.sum_nonneg
  intro z hz
  obtain ⟨x, -, rfl⟩ := List.mem_map.1 hz
  exact mul_self_nonneg x

theorem global_norm_finite {g : Leaves ℝ} {xs : List (List ℝ)} (h : Finite' g xs) :
    global_norm g = .fin (length2 xs) := by
  unfold global_norm
  rw [Fl.sum_fin.2 ⟨_, leaves_sum.2 ⟨xs, h, rfl⟩, rfl⟩]
  simp only [Fl.sqrt]
  rw [if_neg (not_lt.2 (sumsq_nonneg xs))]
  rfl

theorem length2_times (c : ℝ) (xs : List (List ℝ)) : length2 (times c xs) = |c| * length2 xs := by
  have key : ((times c xs).map fun p => (p.map fun x => x * x).sum).sum =
      c ^ 2 * (xs.map fun p => (p.map fun x => x * x).sum).sum := by
    have inner : ∀ p : List ℝ, ((p.map (c * ·)).map fun x => x * x).sum = c ^ 2 * (p.map fun x => x * x).sum := by
      intro p
      induction p with
      | nil => simp
      | cons x p ih =>
        simp only [List.map_cons, List.sum_cons] at ih ⊢
        rw [ih]; ring
    induction xs with
    | nil => simp [times]
    | cons p xs ih =>
      simp only [times, List.map_cons, List.sum_cons] at ih ⊢
      rw [ih, inner]; ring
  unfold length2
  rw [key, sqrt_mul (sq_nonneg c), sqrt_sq_eq_abs]

theorem scale_finite (c : ℝ) {g : Leaves ℝ} {xs : List (List ℝ)} (h : Finite' g xs) :
    Finite' (scale_grads c g) (times c xs) := by
  unfold Finite' at *
  subst h
  simp [scale_grads, times, Fl.scale, Function.comp_def]

theorem clip_finite {c : ℝ} (hc : 0 < c) {g : Leaves ℝ} {xs : List (List ℝ)} (h : Finite' g xs) :
    Finite' (clip_by_global_norm c g) (if length2 xs < c then xs else times (c / length2 xs) xs) := by
  unfold clip_by_global_norm
  rw [global_norm_finite h]
  simp only [Fl.lt, decide_eq_true_eq]
  split_ifs with hl
  · exact h
  · have hpos : length2 xs ≠ 0 := by
      have := not_lt.1 hl
      intro h0; linarith
    unfold Finite' at *
    subst h
    simp only [times, List.map_map, Function.comp_def, Fl.div, if_neg hpos, Fl.scale]
    congr 1
    funext p
    congr 1
    funext x
    congr 1
    ring

/-- C92: The inner optimizer gets a gradient of at most the length `glob_clip`, whatever the scaling, the adaptive
clipping and the gradient were, as long as their result is finite: that result itself if it is shorter than the bound,
otherwise the one in the same direction with the length of the bound. -/
theorem C92_clip (agc : ℝ → Leaves ℝ → Leaves ℝ → Leaves ℝ) (scale adap : Option ℝ) {c : ℝ} (hc : 0 < c)
    (g p : Leaves ℝ) {xs : List (List ℝ)} (h : Finite' (preprocess agc scale adap none g p) xs) :
    ∃ ys, Finite' (preprocess agc scale adap (some c) g p) ys ∧ length2 ys ≤ c ∧
      (length2 xs < c → ys = xs) ∧ (c ≤ length2 xs → ys = times (c / length2 xs) xs ∧ length2 ys = c) := by
  have h1 : preprocess agc scale adap (some c) g p =
      clip_by_global_norm c (preprocess agc scale adap none g p) := rfl
  have hlen : c ≤ length2 xs → length2 (times (c / length2 xs) xs) = c := by
    intro hl
    have hpos : 0 < length2 xs := lt_of_lt_of_le hc hl
    rw [length2_times, abs_of_pos (div_pos hc hpos), div_mul_cancel₀ _ hpos.ne']
  refine ⟨_, by rw [h1]; exact clip_finite hc h, ?_, fun hl => if_pos hl, fun hl => ?_⟩
  · split_ifs with hl
    · exact hl.le
    · exact (hlen (not_lt.1 hl)).le
  · rw [if_neg (not_lt.2 hl)]
    exact ⟨rfl, hlen hl⟩

/-- C92: Gradients are scaled before they are clipped: of a gradient that is longer than the bound also after scaling,
the scaling leaves no trace. -/
theorem C92_scale (agc : ℝ → Leaves ℝ → Leaves ℝ → Leaves ℝ) {s c : ℝ} (hs : 0 < s) (hc : 0 < c)
    (g p : Leaves ℝ) {xs : List (List ℝ)} (h : Finite' g xs) :
    Finite' (preprocess agc (some s) none none g p) (times s xs) ∧
    (c ≤ length2 xs → c ≤ s * length2 xs →
      preprocess agc (some s) none (some c) g p = preprocess agc none none (some c) g p) := by
  refine ⟨scale_finite s h, fun h1 h2 => ?_⟩
  have e1 : Finite' (preprocess agc (some s) none (some c) g p) _ := clip_finite hc (scale_finite s h)
  have e2 : Finite' (preprocess agc none none (some c) g p) _ := clip_finite hc h
  have hpos : 0 < length2 xs := lt_of_lt_of_le hc h1
  rw [length2_times, abs_of_pos hs, if_neg (not_lt.2 h2)] at e1
  rw [if_neg (not_lt.2 h1)] at e2
  have : times (c / (s * length2 xs)) (times s xs) = times (c / length2 xs) xs := by
    simp only [times, List.map_map]
    congr 1
    funext p
    simp only [Function.comp_def, List.map_map]
    congr 1
    funext x
    field_simp
  rw [this] at e1
  unfold Finite' at e1 e2
  rw [e1, e2]

/-- C92: A single `NaN` anywhere before the clipping makes all numbers `NaN`. -/
theorem C92_nan_spreads (agc : ℝ → Leaves ℝ → Leaves ℝ → Leaves ℝ) (scale adap : Option ℝ) (c : ℝ)
    (g p : Leaves ℝ) (h : ∃ l ∈ preprocess agc scale adap none g p, Fl.nan ∈ l) :
    preprocess agc scale adap (some c) g p =
      (preprocess agc scale adap none g p).map fun l => l.map fun _ => .nan := by
  have h1 : preprocess agc scale adap (some c) g p =
      clip_by_global_norm c (preprocess agc scale adap none g p) := rfl
  rw [h1]
  generalize preprocess agc scale adap none g p = g at h
  obtain ⟨l, hl, hn⟩ := h
  have hg : global_norm g = .nan := by
    unfold global_norm
    rw [sum_nan]
    · rfl
    · refine List.mem_map.2 ⟨l, hl, sum_nan (List.mem_map.2 ⟨.nan, hn, rfl⟩)⟩
  unfold clip_by_global_norm
  rw [hg]
  simp only [Fl.lt, Bool.false_eq_true, if_false]
  congr 1
  funext l
  congr 1
  funext x
  cases x <;> rfl

/-- C92: An infinity (without a `NaN`) becomes `NaN` by the clipping and makes all other numbers zero. -/
theorem C92_infinity (agc : ℝ → Leaves ℝ → Leaves ℝ → Leaves ℝ) (scale adap : Option ℝ) (c : ℝ)
    (g p : Leaves ℝ) (h : ∀ l ∈ preprocess agc scale adap none g p, Fl.nan ∉ l)
    (hi : ∃ l ∈ preprocess agc scale adap none g p, Fl.posInf ∈ l ∨ Fl.negInf ∈ l) :
    preprocess agc scale adap (some c) g p =
      (preprocess agc scale adap none g p).map fun l => l.map fun x => if x.notFinite then .nan else .fin 0 := by
  have h1 : preprocess agc scale adap (some c) g p =
      clip_by_global_norm c (preprocess agc scale adap none g p) := rfl
  rw [h1]
  generalize preprocess agc scale adap none g p = g at h hi
  have hleaf : ∀ l : List (Fl ℝ), Fl.nan ∉ l → ∀ x ∈ l.map Fl.sq, NonNeg x := by
    intro l hl x hx
    obtain ⟨y, hy, rfl⟩ := List.mem_map.1 hx
    cases y <;> simp_all [Fl.sq, NonNeg]
  have hall : ∀ x ∈ g.map fun p => Fl.sum (p.map Fl.sq), NonNeg x := by
    intro x hx
    obtain ⟨l, hl, rfl⟩ := List.mem_map.1 hx
    exact (sum_inf (hleaf l (h l hl))).1
  have hg : global_norm g = .posInf := by
    unfold global_norm
    obtain ⟨l, hl, hn⟩ := hi
    rw [(sum_inf hall).2]
    · rfl
    · refine List.mem_map.2 ⟨l, hl, (sum_inf (hleaf l (h l hl))).2 ?_⟩
      rcases hn with hn | hn
      · exact List.mem_map.2 ⟨_, hn, rfl⟩
      · exact List.mem_map.2 ⟨_, hn, rfl⟩
  unfold clip_by_global_norm
  rw [hg]
  simp only [Fl.lt, Bool.false_eq_true, if_false]
  refine List.map_congr_left fun l hl => List.map_congr_left fun x hx => ?_
  have hx' : x ≠ .nan := fun e => h l hl (e ▸ hx)
  cases x <;> simp_all [Fl.div, Fl.scale, Fl.notFinite]

/-! ## Training -/

theorem nUsed_snoc (m : ℝ) (maxc warmup : Nat) (gs : List (Leaves ℝ)) (g : Leaves ℝ) :
    (Used m maxc warmup gs g → nUsed m maxc warmup (gs ++ [g]) = nUsed m maxc warmup gs + 1) ∧
    (¬ Used m maxc warmup gs g → nUsed m maxc warmup (gs ++ [g]) = nUsed m maxc warmup gs) := by
  classical
  have e : nUsed m maxc warmup (gs ++ [g]) =
      nUsed m maxc warmup gs + (if Used m maxc warmup gs g then 1 else 0) := by
    unfold nUsed
    rw [List.length_append, List.length_singleton, List.range_succ, List.filter_append, List.length_append]
    congr 1
    · congr 1
      apply List.filter_congr
      intro k hk
      have hk := List.mem_range.1 hk
      rw [List.getElem?_append_left hk, List.take_append_of_le_length hk.le]
    · rw [List.filter_singleton]
      simp
      split_ifs with h <;> simp [h]
  constructor
  · intro h; rw [e, if_pos h]
  · intro h; rw [e, if_neg h, Nat.add_zero]

/-- C92: The training. After any history `gs` of gradients of a training with fewer than `2 ^ 31 - 1` steps, for the next
gradient `g`:
* it is used if all its numbers, before any scaling and clipping, are finite with a sum of squares below the bound, or
  if it is among the first `warmup` gradients, or if more than 150 gradients in a row were too large;
* if it is used, the parameters change by minus the learning rate times the direction of the inner optimizer for the
  scaled and clipped gradient; the learning rate is the one of the schedule at the number of gradients *used* before;
* otherwise neither the parameters nor the inner optimizer nor the schedule move. -/
theorem C92_training (agc : ℝ → Leaves ℝ → Leaves ℝ → Leaves ℝ) (direction : GradTransform ℝ σ)
    (noise : GradTransform ℝ ν) (a : OptimizerArgs) (hw : a.skip_large_update_warmup ≤ 2147483647) {rate : Nat → ℝ}
    (hr : schedule a.lr a.n_episodes a.n_steps_per_episode a.cos_decay_twice = .ok rate)
    (p0 : Leaves ℝ) (i0 : σ) (n0 : ν) (gs : List (Leaves ℝ)) (g : Leaves ℝ) (hl : gs.length < 2147483647) :
    ∃ update, make_optimizer agc direction noise a = .ok update ∧
      let s := trainOn update gs (p0, skipInit (i0, 0) n0)
      let s' := apply_grads update g s.1 s.2
      let d := direction (preprocess agc a.scale_grads a.adap_clip a.glob_clip g s.1) s.2.inner_state.1 s.1
      let n := nUsed a.skip_large_update_max_normsq 150 a.skip_large_update_warmup gs
      s.2.inner_state.2 = n ∧
      (Used a.skip_large_update_max_normsq 150 a.skip_large_update_warmup gs g →
        s'.1 = apply_updates s.1 (d.1.map fun l => l.map (Fl.scale (-rate n))) ∧ s'.2.inner_state = (d.2, n + 1)) ∧
      (¬ Used a.skip_large_update_max_normsq 150 a.skip_large_update_warmup gs g →
        s'.2.inner_state = s.2.inner_state ∧ (SameShape g s.1 → s'.1 = s.1)) := by
  classical
  obtain ⟨inner, hin⟩ : ∃ inner, inner =
    chained (preprocess agc a.scale_grads a.adap_clip a.glob_clip) (byLearningRate direction rate) := ⟨_, rfl⟩
  have hupd : make_optimizer agc direction noise a = .ok (skipUpdate inner noise a.skip_large_update_max_normsq 150
      a.skip_large_update_warmup false) := by
    simp only [make_optimizer, hr, bind, Except.bind, skip_large_update, Bool.false_eq_true, if_false, hin]
  refine ⟨_, hupd, ?_⟩
  generalize a.skip_large_update_max_normsq = m
  generalize a.skip_large_update_warmup = w at hw
  -- one step
  have one : ∀ (gs : List (Leaves ℝ)) (g : Leaves ℝ), gs.length < 2147483647 →
      let s := trainOn (skipUpdate inner noise m 150 w false) gs (p0, skipInit (i0, 0) n0)
      let s' := apply_grads (skipUpdate inner noise m 150 w false) g s.1 s.2
      (Used m 150 w gs g → s'.1 = apply_updates s.1 (inner g s.2.inner_state s.1).1 ∧
        s'.2.inner_state = (inner g s.2.inner_state s.1).2) ∧
      (¬ Used m 150 w gs g → s'.2.inner_state = s.2.inner_state ∧ (SameShape g s.1 → s'.1 = s.1)) := by
    intro gs g hl
    obtain ⟨hc1, hc2⟩ := counters inner noise m 150 w false p0 (i0, 0) n0 gs
    dsimp only at hc1 hc2 ⊢
    have hcond : ((_condition_not_toolarge g m = true ∨
        (if _condition_not_toolarge g m = true then 0 else safe_int32_increment
          (trainOn (skipUpdate inner noise m 150 w false) gs (p0, skipInit (i0, 0) n0)).2.toolarge_count) > 150) ∨
        (trainOn (skipUpdate inner noise m 150 w false) gs (p0, skipInit (i0, 0) n0)).2.count < w) ↔
        Used m 150 w gs g := by
      rw [hc1, hc2]
      have hiff := not_toolarge_iff g m
      unfold Used safe_int32_increment
      by_cases hs : Small m g
      · simp [hs, hiff.2 hs]
      · have hf : ¬ _condition_not_toolarge g m = true := fun hh => hs (hiff.1 hh)
        simp only [hs, hf, false_or, if_false, Bool.false_eq_true]
        split_ifs <;> omega
    constructor
    · intro hu
      simp only [apply_grads, skipUpdate]
      rw [if_pos (hcond.2 hu)]
      exact ⟨rfl, rfl⟩
    · intro hu
      simp only [apply_grads, skipUpdate]
      rw [if_neg (fun hh => hu (hcond.1 hh))]
      simp only [reject_update, Bool.false_eq_true, if_false, true_and]
      exact fun hs => apply_zero_updates hs
  -- the counter of the schedule
  have count : ∀ gs : List (Leaves ℝ), gs.length ≤ 2147483647 →
      (trainOn (skipUpdate inner noise m 150 w false) gs (p0, skipInit (i0, 0) n0)).2.inner_state.2 =
        nUsed m 150 w gs ∧ nUsed m 150 w gs ≤ gs.length := by
    intro gs
    induction gs using List.reverseRecOn with
    | nil => intro _; exact ⟨rfl, Nat.le_refl _⟩
    | append_singleton gs g ih =>
      intro hl
      rw [List.length_append, List.length_singleton] at hl ⊢
      obtain ⟨h1, h2⟩ := ih (by omega)
      obtain ⟨h3, h4⟩ := one gs g (by omega)
      rw [trainOn_snoc]
      by_cases hu : Used m 150 w gs g
      · rw [(nUsed_snoc m 150 w gs g).1 hu, (h3 hu).2, hin]
        refine ⟨?_, by omega⟩
        simp only [chained, byLearningRate]
        rw [← hin, h1, safe_int32_increment, if_pos (by omega)]
      · rw [(nUsed_snoc m 150 w gs g).2 hu, (h4 hu).1]
        exact ⟨h1, by omega⟩
  obtain ⟨h1, h2⟩ := count gs hl.le
  obtain ⟨h3, h4⟩ := one gs g hl
  dsimp only
  refine ⟨h1, fun hu => ?_, h4⟩
  obtain ⟨h5, h6⟩ := h3 hu
  rw [h5, h6]
  have hI : inner = chained (preprocess agc a.scale_grads a.adap_clip a.glob_clip) (byLearningRate direction rate) := hin
  constructor
  · conv_lhs => rw [hI]
    simp only [chained, byLearningRate]
    rw [← hI, h1]
  · conv_lhs => rw [hI]
    simp only [chained, byLearningRate]
    rw [← hI, h1, safe_int32_increment, if_pos (by omega)]

/-! ## Where the claims fail -/

/-- the gradient itself -/
def plain : GradTransform ℝ Unit := fun g s _ => (g, s)

/-- no adaptive clipping -/
def noAgc : ℝ → Leaves ℝ → Leaves ℝ → Leaves ℝ := fun _ g _ => g

/-- C92: With `cos_decay_twice` a training of one step has no optimizer. -/
theorem C92_one_step_fails :
    make_optimizer noAgc plain plain
      { lr := 1, n_episodes := 1, n_steps_per_episode := 1, cos_decay_twice := true } = .error .value :=
  (C92_no_steps _ _ _ _).2 (by norm_num)

/-- C92: With `cos_decay_twice` the schedule is one step too short for an odd number of steps: the learning rate of the
last step of the training is zero. -/
theorem C92_odd_steps_fails (lr : ℝ) (hlr : 0 < lr) (h : Nat) (hh : 0 < h) :
    ∃ f, schedule lr (2 * h + 1) 1 true = .ok f ∧ f (2 * h) = 0 := by
  have e : 1 * (2 * h + 1) / 2 = h := by omega
  obtain ⟨f, h1, -, -, h2, -⟩ := C92_schedule_twice lr hlr (2 * h + 1) 1 (by omega)
  exact ⟨f, h1, h2 _ (by omega)⟩

/-- C92: Within the warm-up (the default arguments) a single `NaN` in one leaf is not confined to it: after the first
step all parameters, also of other leaves, are `NaN`. -/
theorem C92_warmup_nan_fails :
    ∃ update, make_optimizer noAgc plain plain { lr := 1, n_episodes := 100 } = .ok update ∧
      (trainOn update [[[.nan], [.fin 0]]] ([[.fin 1], [.fin 2]], skipInit ((), 0) ())).1 = [[.nan], [.nan]] := by
  classical
  have hr : ∃ rate, schedule 1 100 6 false = .ok rate := by
    obtain ⟨f, hf, -⟩ := C92_schedule 1 one_pos 100 6 (by norm_num)
    exact ⟨f, hf⟩
  obtain ⟨rate, hr⟩ := hr
  obtain ⟨update, h1, h2⟩ := C92_training (σ := Unit) (ν := Unit) noAgc plain plain { lr := 1, n_episodes := 100 }
    (by norm_num) hr [[.fin 1], [.fin 2]] () () [] [[.nan], [.fin 0]] (by norm_num)
  refine ⟨update, h1, ?_⟩
  dsimp only at h2
  obtain ⟨-, h3, -⟩ := h2
  have h4 := (h3 (.inr (.inr (by norm_num)))).1
  have e := C92_nan_spreads noAgc none (some 0.1) 0.2 [[.nan], [.fin 0]] [[.fin 1], [.fin 2]]
    ⟨[.nan], by simp [preprocess, noAgc], by simp⟩
  simp only [trainOn] at h4 ⊢
  rw [h4, e]
  simp [plain, preprocess, noAgc, apply_updates, Fl.scale, Fl.add]

/-! ## Examples -/

/-- `C92_clip` with `[3, 4]`: five long, clipped to the length one. -/
example : ∃ ys, Finite' (preprocess noAgc none (some 0.1) (some 1) [[.fin 3], [.fin 4]] []) ys ∧
    length2 ys ≤ 1 ∧ ys = times (1 / length2 [[3], [4]]) [[3], [4]] := by
  have h5 : length2 [[3], [4]] = 5 := by
    have : length2 [[3], [4]] = √(5 ^ 2) := by unfold length2; norm_num
    rw [this, sqrt_sq (by norm_num)]
  obtain ⟨ys, h1, h2, -, h3⟩ := C92_clip noAgc none (some 0.1) one_pos [[.fin 3], [.fin 4]] [] (xs := [[3], [4]]) rfl
  exact ⟨ys, h1, h2, (h3 (by rw [h5]; norm_num)).1⟩

/-- `C92_scale`: factor two -/
example : preprocess noAgc (some 2) none (some 1) [[.fin 3], [.fin 4]] [] =
    preprocess noAgc none none (some 1) [[.fin 3], [.fin 4]] [] := by
  have h5 : length2 [[3], [4]] = 5 := by
    have : length2 [[3], [4]] = √(5 ^ 2) := by unfold length2; norm_num
    rw [this, sqrt_sq (by norm_num)]
  exact (C92_scale noAgc two_pos one_pos [[.fin 3], [.fin 4]] [] (xs := [[3], [4]]) rfl).2
    (by rw [h5]; norm_num) (by rw [h5]; norm_num)

/-- the schedules exist -/
example : (0 : Nat) < 6 * 100 ∧ (0 : Nat) < 6 * 100 / 2 := by norm_num

/-- Neither of the kinds of gradients is empty: a gradient beyond the bound is not used after a warm-up of no steps, a
small one is. -/
example : ¬ Used 100 150 0 [] [[.fin 11]] ∧ Used 100 150 0 [] [[.fin 9]] := by
  constructor
  · rintro (⟨xs, h1, h2⟩ | h | h)
    · rcases xs with _ | ⟨x, _ | ⟨y, ys⟩⟩
      · simp at h1
      · rcases x with _ | ⟨z, _ | ⟨z', zs⟩⟩
        · simp at h1
        · simp at h1
          subst h1
          norm_num at h2
        · simp at h1
      · simp at h1
    · simp [largeRun] at h
    · simp at h
  · exact .inl ⟨[[9]], rfl, by norm_num⟩

end RingLib.ml
