import Verif.Model.Optimizer
import Mathlib.Algebra.BigOperators.Group.List.Basic
import Mathlib.Data.Rat.Floor
import Mathlib.Tactic.NormNum

/-!
# Large and `NaN` updates (C55)
-/

namespace RingLib

namespace Fl
variable {R : Type}

theorem add_eq_fin [Add R] {a b : Fl R} {z : R} (h : add a b = fin z) :
    ∃ x y, a = fin x ∧ b = fin y ∧ z = x + y := by
  cases a <;> cases b <;> simp [add] at h
  exact ⟨_, _, rfl, rfl, h.symm⟩

theorem add_zero' [AddZeroClass R] (a : Fl R) : add a (fin 0) = a := by
  cases a <;> simp [add]

theorem foldl_fin [AddMonoid R] : ∀ (l : List (Fl R)) (a : Fl R) (z : R),
    l.foldl add a = fin z ↔ ∃ (x : R) (xs : List R), a = fin x ∧ l = xs.map fin ∧ z = x + xs.sum
  | [], a, z => by
    simp only [List.foldl_nil]
    constructor
    · rintro rfl
      exact ⟨z, [], rfl, rfl, by simp⟩
    · rintro ⟨x, xs, rfl, h, rfl⟩
      have : xs = [] := by simpa using h.symm
      simp [this]
  | b :: l, a, z => by
    rw [List.foldl_cons, foldl_fin l]
    constructor
    · rintro ⟨x, xs, h, rfl, rfl⟩
      obtain ⟨p, q, rfl, rfl, rfl⟩ := add_eq_fin h
      exact ⟨p, q :: xs, rfl, rfl, by simp [add_assoc]⟩
    · rintro ⟨x, xs, rfl, h, rfl⟩
      rcases xs with _ | ⟨q, xs⟩
      · simp at h
      · simp only [List.map_cons, List.cons.injEq] at h
        obtain ⟨rfl, rfl⟩ := h
        exact ⟨x + q, xs, rfl, rfl, by simp [add_assoc]⟩

theorem sum_fin [AddMonoid R] {l : List (Fl R)} {z : R} :
    sum l = fin z ↔ ∃ xs : List R, l = xs.map fin ∧ z = xs.sum := by
  rw [sum, foldl_fin]
  constructor
  · rintro ⟨x, xs, h, rfl, rfl⟩
    cases h
    exact ⟨xs, rfl, by simp⟩
  · rintro ⟨xs, rfl, rfl⟩
    exact ⟨0, xs, rfl, rfl, by simp⟩

theorem map_sq_fin [Mul R] : ∀ {l : List (Fl R)} {ys : List R}, l.map sq = ys.map fin ↔
    ∃ xs : List R, l = xs.map fin ∧ ys = xs.map fun x => x * x
  | [], ys => by
    constructor
    · intro h
      have : ys = [] := by simpa using h.symm
      exact ⟨[], rfl, this⟩
    · rintro ⟨xs, h, rfl⟩
      have : xs = [] := by simpa using h.symm
      simp [this]
  | a :: l, ys => by
    constructor
    · intro h
      rcases ys with _ | ⟨y, ys⟩
      · simp at h
      · simp only [List.map_cons, List.cons.injEq] at h
        obtain ⟨xs, rfl, rfl⟩ := map_sq_fin.1 h.2
        cases a <;> simp [sq] at h
        exact ⟨_ :: xs, rfl, by simp [← h]⟩
    · rintro ⟨xs, h, rfl⟩
      rcases xs with _ | ⟨x, xs⟩
      · simp at h
      · simp only [List.map_cons, List.cons.injEq] at h
        obtain ⟨rfl, rfl⟩ := h
        simp only [List.map_cons, sq, List.cons.injEq, true_and]
        exact map_sq_fin.2 ⟨xs, rfl, rfl⟩

/-- A sum of squares is never minus infinity. -/
theorem sq_ne_negInf [Mul R] (a : Fl R) : sq a ≠ negInf := by cases a <;> simp [sq]

theorem foldl_ne_negInf [Add R] : ∀ (l : List (Fl R)) (a : Fl R), a ≠ negInf →
    (∀ x ∈ l, x ≠ negInf) → l.foldl add a ≠ negInf
  | [], _, h, _ => h
  | b :: l, a, h, hl => by
    rw [List.foldl_cons]
    refine foldl_ne_negInf l _ ?_ (fun x hx => hl x (List.mem_cons_of_mem _ hx))
    have hb := hl b (by simp)
    cases a <;> cases b <;> simp_all [add]

theorem lt_fin [LinearOrder R] {a : Fl R} {m : R} (ha : a ≠ negInf) :
    a.lt (fin m) = true ↔ ∃ z, a = fin z ∧ z < m := by
  cases a <;> simp_all [lt]

end Fl

namespace ml

variable {R σ ν : Type}

/-! ## Specification -/

/-- All numbers are finite and the sum of their squares is below the bound. -/
def Small [Semiring R] [LinearOrder R] (max_norm_sq : R) (g : Leaves R) : Prop :=
  ∃ xs : List (List R), g = xs.map (fun p => p.map Fl.fin) ∧
    (xs.map fun p => (p.map fun x => x * x).sum).sum < max_norm_sq

open Classical in
/-- The number of gradients at the end of the history that are not small. -/
noncomputable def largeRun [Semiring R] [LinearOrder R] (max_norm_sq : R) (gs : List (Leaves R)) :
    Nat :=
  (gs.reverse.takeWhile fun g => ¬ Small max_norm_sq g).length

/-- Same leaves with the same numbers of entries. -/
def SameShape (g p : Leaves R) : Prop := g.map List.length = p.map List.length

/-! ## Proofs -/

theorem leaves_sum [Semiring R] : ∀ {g : Leaves R} {ys : List R},
    (g.map fun p => Fl.sum (p.map Fl.sq)) = ys.map Fl.fin ↔
      ∃ xs : List (List R), g = xs.map (fun p => p.map Fl.fin) ∧
        ys = xs.map fun p => (p.map fun x => x * x).sum
  | [], ys => by
    constructor
    · intro h
      have : ys = [] := by simpa using h.symm
      exact ⟨[], rfl, this⟩
    · rintro ⟨xs, h, rfl⟩
      have : xs = [] := by simpa using h.symm
      simp [this]
  | p :: g, ys => by
    constructor
    · intro h
      rcases ys with _ | ⟨y, ys⟩
      · simp at h
      · simp only [List.map_cons, List.cons.injEq] at h
        obtain ⟨xs, rfl, rfl⟩ := leaves_sum.1 h.2
        obtain ⟨zs, hz, rfl⟩ := Fl.sum_fin.1 h.1
        obtain ⟨ws, rfl, rfl⟩ := Fl.map_sq_fin.1 hz
        exact ⟨ws :: xs, rfl, rfl⟩
    · rintro ⟨xs, h, rfl⟩
      rcases xs with _ | ⟨x, xs⟩
      · simp at h
      · simp only [List.map_cons, List.cons.injEq] at h
        obtain ⟨rfl, rfl⟩ := h
        simp only [List.map_cons, List.cons.injEq]
        exact ⟨Fl.sum_fin.2 ⟨_, Fl.map_sq_fin.2 ⟨x, rfl, rfl⟩, rfl⟩, leaves_sum.2 ⟨xs, rfl, rfl⟩⟩

variable [Ring R] [LinearOrder R]

theorem not_toolarge_iff (g : Leaves R) (m : R) :
    _condition_not_toolarge g m = true ↔ Small m g := by
  unfold _condition_not_toolarge
  rw [Fl.lt_fin]
  · constructor
    · rintro ⟨z, hz, hlt⟩
      obtain ⟨ys, hys, rfl⟩ := Fl.sum_fin.1 hz
      obtain ⟨xs, rfl, rfl⟩ := leaves_sum.1 hys
      exact ⟨xs, rfl, hlt⟩
    · rintro ⟨xs, rfl, hlt⟩
      exact ⟨_, Fl.sum_fin.2 ⟨_, leaves_sum.2 ⟨xs, rfl, rfl⟩, rfl⟩, hlt⟩
  · refine Fl.foldl_ne_negInf _ _ (by simp) ?_
    intro x hx
    obtain ⟨p, _, rfl⟩ := List.mem_map.1 hx
    refine Fl.foldl_ne_negInf _ _ (by simp) ?_
    intro y hy
    obtain ⟨a, _, rfl⟩ := List.mem_map.1 hy
    exact Fl.sq_ne_negInf a

omit [LinearOrder R] in
theorem apply_zero_updates : ∀ {p g : Leaves R}, SameShape g p →
    apply_updates p (g.map fun x => x.map fun _ => Fl.fin 0) = p
  | [], [], _ => rfl
  | [], _ :: _, h => by simp [SameShape] at h
  | _ :: _, [], h => by simp [SameShape] at h
  | a :: p, b :: g, h => by
    simp only [SameShape, List.map_cons, List.cons.injEq] at h
    have ih := apply_zero_updates (p := p) (g := g) h.2
    rw [apply_updates] at ih ⊢
    simp only [List.map_cons, List.zipWith_cons_cons, ih, List.cons.injEq, and_true]
    have h1 := h.1
    clear ih h
    induction a generalizing b with
    | nil => simp
    | cons x a ih =>
      rcases b with _ | ⟨y, b⟩
      · simp at h1
      · simp only [List.map_cons, List.zipWith_cons_cons, Fl.add_zero']
        rw [ih b (by simpa using h1)]

theorem largeRun_snoc_small {m : R} (gs : List (Leaves R)) {g : Leaves R} (h : Small m g) :
    largeRun m (gs ++ [g]) = 0 := by
  simp [largeRun, h]

theorem largeRun_snoc_large {m : R} (gs : List (Leaves R)) {g : Leaves R} (h : ¬ Small m g) :
    largeRun m (gs ++ [g]) = largeRun m gs + 1 := by
  simp [largeRun, h]

omit [LinearOrder R] in
theorem trainOn_snoc {τ : Type} (update : Leaves R → τ → Leaves R → Leaves R × τ) :
    ∀ (gs : List (Leaves R)) (g : Leaves R) (s : Leaves R × τ),
    trainOn update (gs ++ [g]) s =
      apply_grads update g (trainOn update gs s).1 (trainOn update gs s).2
  | [], _, _ => rfl
  | g' :: gs, g, s => trainOn_snoc update gs g _

/-- The counters after any history. -/
theorem counters (inner : GradTransform R σ) (noise : GradTransform R ν) (m : R)
    (maxc warmup : Nat) (disturb : Bool) (p0 : Leaves R) (i0 : σ) (n0 : ν) (gs : List (Leaves R)) :
    let s := trainOn (skipUpdate inner noise m maxc warmup disturb) gs (p0, skipInit i0 n0)
    s.2.toolarge_count = min (largeRun m gs) 2147483647 ∧
      s.2.count = min gs.length 2147483647 := by
  induction gs using List.reverseRecOn with
  | nil => simp [trainOn, skipInit, largeRun]
  | append_singleton gs g ih =>
    dsimp only at ih ⊢
    rw [trainOn_snoc]
    simp only [apply_grads, skipUpdate]
    constructor
    · by_cases h : Small m g
      · rw [if_pos ((not_toolarge_iff g m).2 h), largeRun_snoc_small gs h]
        rfl
      · rw [if_neg (fun hh => h ((not_toolarge_iff g m).1 hh)), largeRun_snoc_large gs h, ih.1,
          safe_int32_increment]
        split <;> omega
    · rw [ih.2, safe_int32_increment, List.length_append, List.length_singleton]
      split <;> omega

/-- C55.  After any history of gradients, for the next gradient `g` (of the shape of the
parameters):
* the counter is the number of consecutive large gradients (up to the largest 32-bit integer);
* a small gradient is passed to the inner optimizer and its result applied;
* a large gradient, or one with a `NaN` or an infinity, changes neither the parameters nor the state
  of the inner optimizer, if it is not within the warmup and at most the allowed number of gradients
  in a row were large;
* once there are more in a row the inner optimizer is used again.
Missing: large gradients within the warmup are applied, see `C55_warmup_fails`; the counter keeps on
counting when updates are not rejected any more, see `C55_counter_fails`. -/
theorem C55_partial (inner : GradTransform R σ) (noise : GradTransform R ν) (m : R)
    (maxc warmup : Nat) (hm : maxc < 2147483647) (hw : warmup ≤ 2147483647)
    (p0 : Leaves R) (i0 : σ) (n0 : ν) (gs : List (Leaves R)) (g : Leaves R) :
    ∃ update, skip_large_update inner noise m maxc warmup = .ok update ∧
      let s := trainOn update gs (p0, skipInit i0 n0)
      let s' := apply_grads update g s.1 s.2
      s.2.toolarge_count = min (largeRun m gs) 2147483647 ∧
      (Small m g → s'.1 = apply_updates s.1 (inner g s.2.inner_state s.1).1 ∧
        s'.2.inner_state = (inner g s.2.inner_state s.1).2) ∧
      (¬ Small m g → largeRun m gs + 1 ≤ maxc → warmup ≤ gs.length → SameShape g s.1 →
        s'.1 = s.1 ∧ s'.2.inner_state = s.2.inner_state) ∧
      (¬ Small m g → maxc < largeRun m gs + 1 →
        s'.1 = apply_updates s.1 (inner g s.2.inner_state s.1).1 ∧
        s'.2.inner_state = (inner g s.2.inner_state s.1).2) := by
  refine ⟨_, rfl, ?_⟩
  dsimp only
  obtain ⟨hc1, hc2⟩ := counters inner noise m maxc warmup false p0 i0 n0 gs
  refine ⟨hc1, fun h => ?_, fun h h1 h2 hs => ?_, fun h h1 => ?_⟩
  · simp only [apply_grads, skipUpdate]
    have := (not_toolarge_iff g m).2 h
    simp only [this, if_true, true_or, do_update, and_self]
  · have hf : ¬ _condition_not_toolarge g m = true := fun hh => h ((not_toolarge_iff g m).1 hh)
    simp only [apply_grads, skipUpdate]
    rw [if_neg (by
      rw [if_neg hf, hc1, hc2, safe_int32_increment]
      rintro ((h | h) | h)
      · exact hf h
      · split at h <;> omega
      · omega)]
    simp only [reject_update, Bool.false_eq_true, if_false, and_true]
    exact apply_zero_updates hs
  · have hf : ¬ _condition_not_toolarge g m = true := fun hh => h ((not_toolarge_iff g m).1 hh)
    simp only [apply_grads, skipUpdate]
    rw [if_pos (by
      rw [if_neg hf, hc1, safe_int32_increment]
      refine .inl (.inr ?_)
      split <;> omega)]
    exact ⟨rfl, rfl⟩

/-! ## Examples -/

/-- Plain gradient descent that counts its calls. -/
def descent : GradTransform ℚ Nat := fun g s _ =>
  (g.map fun p => p.map fun x => match x with | .fin x => .fin (-x) | y => y, s + 1)

/-- No noise. -/
def noNoise : GradTransform ℚ Unit := fun g s _ => (g, s)

theorem nan_not_small : ¬ Small (1 : ℚ) [[.nan]] := by
  rw [← not_toolarge_iff]
  simp [_condition_not_toolarge, Fl.sum, Fl.sq, Fl.add, Fl.lt]

theorem half_small : Small (1 : ℚ) [[.fin (1 / 2)]] :=
  ⟨[[1 / 2]], rfl, by norm_num⟩

example : SameShape [[Fl.nan]] [[Fl.fin (3 : ℚ)]] := rfl

/-- After a small gradient one with a `NaN` is skipped. -/
example : trainOn (skipUpdate descent noNoise 1 2 0 false) [[[.fin (1 / 2)]], [[.nan]]]
    ([[.fin 3]], skipInit 0 ()) = ([[.fin (5 / 2)]], ⟨1, 2, 1, ()⟩) := by
  simp [trainOn, apply_grads, skipUpdate, _condition_not_toolarge, Fl.sum, Fl.sq, Fl.add, Fl.lt,
    descent, apply_updates, skipInit, do_update, reject_update, safe_int32_increment]
  norm_num [Fl.add]

/-- C55 fails within the warmup: the first gradient contains a `NaN`, the inner optimizer gets it
and the parameters become `NaN`. -/
theorem C55_warmup_fails :
    trainOn (skipUpdate descent noNoise 1 150 300 false) [[[.nan]]] ([[.fin 3]], skipInit 0 ()) =
      ([[.nan]], ⟨1, 1, 1, ()⟩) := by
  simp [trainOn, apply_grads, skipUpdate, _condition_not_toolarge, Fl.sum, Fl.sq, Fl.add, Fl.lt,
    descent, apply_updates, skipInit, do_update, reject_update, safe_int32_increment]

/-- C55: the counter is not the number of consecutive rejections; with at most one rejection in a
row it is `3` after three large gradients, of which one was rejected and two were applied. -/
theorem C55_counter_fails :
    trainOn (skipUpdate descent noNoise 1 1 0 false)
        [[[.fin 2]], [[.fin 2]], [[.fin 2]]] ([[.fin 3]], skipInit 0 ()) =
      ([[.fin (-1)]], ⟨3, 3, 2, ()⟩) := by
  simp [trainOn, apply_grads, skipUpdate, _condition_not_toolarge, Fl.sum, Fl.sq, Fl.add, Fl.lt,
    descent, apply_updates, skipInit, do_update, reject_update, safe_int32_increment]
  norm_num [Fl.add]

end ml
end RingLib
