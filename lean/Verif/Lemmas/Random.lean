import Mathlib.Tactic.Linarith
import Mathlib.Tactic.Ring
import Mathlib.Tactic.FieldSimp
import Verif.Model.Random

/-!
# Loops, buffers and interpolation
-/

namespace RingLib
open Real

/-! ## while loops -/

theorem whileLoop_spec {σ : Type} {cond : σ → Prop} {body : σ → σ} {s s' : σ}
    (h : whileLoop cond body s = some s') :
    ∃ n, s' = body^[n] s ∧ ¬ cond s' ∧ ∀ k, k < n → cond (body^[k] s) := by
  classical
  unfold whileLoop at h
  split at h
  · rename_i hex
    refine ⟨Nat.find hex, (Option.some.inj h).symm, ?_, ?_⟩
    · rw [← Option.some.inj h]
      exact Nat.find_spec hex
    · intro k hk
      by_contra hc
      exact Nat.find_min hex hk hc
  · cases h

theorem whileLoop_inv {σ : Type} {cond : σ → Prop} {body : σ → σ} {s s' : σ} (P : σ → Prop)
    (h : whileLoop cond body s = some s') (h0 : P s) (hs : ∀ s, cond s → P s → P (body s)) :
    P s' ∧ ¬ cond s' := by
  obtain ⟨n, rfl, hc, hk⟩ := whileLoop_spec h
  refine ⟨?_, hc⟩
  clear hc h
  induction n with
  | zero => exact h0
  | succ n ih =>
    rw [Function.iterate_succ_apply']
    exact hs _ (hk n (by omega)) (ih fun k h => hk k (by omega))

/-- As above, for what holds after at least one round. -/
theorem whileLoop_inv1 {σ : Type} {cond : σ → Prop} {body : σ → σ} {s s' : σ} (P : σ → Prop)
    (h : whileLoop cond body s = some s') (h0 : cond s) (hP : P (body s))
    (hs : ∀ s, cond s → P s → P (body s)) : P s' ∧ ¬ cond s' := by
  obtain ⟨n, rfl, hc, hk⟩ := whileLoop_spec h
  refine ⟨?_, hc⟩
  cases n with
  | zero => exact absurd h0 hc
  | succ n =>
    clear hc h
    induction n with
    | zero => exact hP
    | succ n ih =>
      rw [Function.iterate_succ_apply']
      exact hs _ (hk _ (by omega)) (ih fun k h => hk k (by omega))

theorem whileLoop_isSome {σ : Type} {cond : σ → Prop} {body : σ → σ} {s : σ} (n : Nat)
    (h : ¬ cond (body^[n] s)) : ∃ s', whileLoop cond body s = some s' := by
  classical
  unfold whileLoop
  rw [dif_pos ⟨n, h⟩]
  exact ⟨_, rfl⟩

/-- A loop whose state carries an invariant and a quantity that grows beyond every bound ends. -/
theorem whileLoop_ends {σ : Type} {cond : σ → Prop} {body : σ → σ} {s : σ} (P : σ → Prop)
    (f : σ → ℝ) (b : ℝ) (ε : ℝ) (hε : 0 < ε) (h0 : P s) (hs : ∀ s, cond s → P s → P (body s))
    (hf : ∀ s, cond s → P s → f s + ε ≤ f (body s)) (hb : ∀ s, P s → cond s → f s ≤ b) :
    ∃ s', whileLoop cond body s = some s' := by
  by_contra hno
  have hall : ∀ n, cond (body^[n] s) := by
    intro n
    by_contra hc
    exact hno (whileLoop_isSome n hc)
  have hP : ∀ n, P (body^[n] s) := by
    intro n
    induction n with
    | zero => exact h0
    | succ n ih => rw [Function.iterate_succ_apply']; exact hs _ (hall n) ih
  have hg : ∀ n : Nat, f s + n * ε ≤ f (body^[n] s) := by
    intro n
    induction n with
    | zero => simp
    | succ n ih =>
      rw [Function.iterate_succ_apply']
      have := hf _ (hall n) (hP n)
      push_cast
      linarith
  obtain ⟨n, hn⟩ := exists_nat_gt ((b - f s) / ε)
  have h1 := hg n
  have h2 := hb _ (hP n) (hall n)
  rw [div_lt_iff₀ hε] at hn
  linarith

/-! ## draws from an interval -/

theorem scaleU_ge (u a b : ℝ) : a ≤ scaleU u a b := le_max_left _ _

theorem scaleU_le {u a b : ℝ} (h0 : 0 ≤ u) (h1 : u < 1) (hab : a ≤ b) : scaleU u a b ≤ b := by
  unfold scaleU
  apply max_le hab
  nlinarith

theorem scaleU_swap {u a b : ℝ} (h0 : 0 ≤ u) (hab : b ≤ a) : scaleU u a b = a := by
  unfold scaleU
  apply max_eq_left
  nlinarith

theorem scaleU_le_max {u a b : ℝ} (h0 : 0 ≤ u) (h1 : u < 1) : scaleU u a b ≤ max a b := by
  rcases le_total a b with h | h
  · exact (scaleU_le h0 h1 h).trans (le_max_right _ _)
  · rw [scaleU_swap h0 h]
    exact le_max_left _ _

/-! ## indices -/

theorem jaxIdx_nat {n i : Nat} (h : i < n) : jaxIdx n (i : Int) = i := by
  unfold jaxIdx
  rw [if_neg (by omega)]
  omega

theorem jaxIdx_clamp {n i : Nat} (h : n - 1 ≤ i) : jaxIdx n (i : Int) = n - 1 := by
  unfold jaxIdx
  rw [if_neg (by omega)]
  omega

theorem jaxIdx_last (n : Nat) : jaxIdx n (-1) = n - 1 := by
  unfold jaxIdx
  rw [if_pos (by omega)]
  omega

theorem jaxGet_nat {β : Type} (d : β) (a : List β) {i : Nat} (h : i < a.length) :
    jaxGet d a (i : Int) = a[i] := by
  unfold jaxGet
  rw [jaxIdx_nat h, List.getD_eq_getElem?_getD, List.getElem?_eq_getElem h, Option.getD_some]

theorem jaxGet_last {β : Type} (d : β) (a : List β) (h : a ≠ []) :
    jaxGet d a (-1) = a.getLast h := by
  have hl : 0 < a.length := List.length_pos_iff.mpr h
  unfold jaxGet
  rw [jaxIdx_last, List.getD_eq_getElem?_getD, List.getElem?_eq_getElem (by omega),
    Option.getD_some, List.getLast_eq_getElem]

theorem jaxGet_mem {β : Type} (d : β) (a : List β) (i : Int) (h : a ≠ []) : jaxGet d a i ∈ a := by
  have hl : 0 < a.length := List.length_pos_iff.mpr h
  unfold jaxGet
  have : jaxIdx a.length i < a.length := by unfold jaxIdx; omega
  rw [List.getD_eq_getElem?_getD, List.getElem?_eq_getElem this, Option.getD_some]
  exact List.getElem_mem _

theorem jaxSet_length {β : Type} (a : List β) (i : Nat) (x : β) :
    (jaxSet a i x).length = a.length := by
  unfold jaxSet
  rw [List.length_set]

namespace random

/-! ## `searchsorted` -/

theorem searchsorted_le (xp : List ℝ) (x : ℝ) : searchsorted_right xp x ≤ xp.length := by
  unfold searchsorted_right
  exact List.countP_le_length

/-- Entries left of the insertion point are `≤ x`, the others are `> x`. -/
theorem searchsorted_spec (xp : List ℝ) (x : ℝ) (hs : xp.Pairwise (· ≤ ·)) (j : Nat)
    (hj : j < xp.length) : xp[j] ≤ x ↔ j < searchsorted_right xp x := by
  unfold searchsorted_right
  induction xp generalizing j with
  | nil => simp at hj
  | cons a l ih =>
    rw [List.pairwise_cons] at hs
    rw [List.countP_cons]
    by_cases ha : a ≤ x
    · simp only [ha, decide_true, if_true]
      cases j with
      | zero => simp [ha]
      | succ j =>
        rw [List.getElem_cons_succ]
        rw [ih hs.2 j (by simpa using hj)]
        omega
    · have h0 : l.countP (fun y => decide (y ≤ x)) = 0 := by
        rw [List.countP_eq_zero]
        intro b hb
        have := hs.1 b hb
        simp only [decide_eq_true_eq]
        intro h
        exact ha (this.trans h)
      rw [h0]
      simp only [ha, decide_false, Bool.false_eq_true, if_false]
      constructor
      · intro h
        exfalso
        cases j with
        | zero => exact ha h
        | succ j =>
          rw [List.getElem_cons_succ] at h
          exact ha ((hs.1 _ (List.getElem_mem _)).trans h)
      · intro h
        omega

/-- the number of the interval as a natural number -/
theorem interval_nat (xp : List ℝ) (x : ℝ) (hl : 2 ≤ xp.length) :
    interval xp x = ((min (max (searchsorted_right xp x) 1) (xp.length - 1) : Nat) : Int) := by
  unfold interval
  omega

/-- With at least two knots: the interval used lies between two neighbouring knots, and around the
query point where there is one. -/
theorem interval_spec (xp : List ℝ) (x : ℝ) (hs : xp.Pairwise (· ≤ ·)) (hl : 2 ≤ xp.length) :
    ∃ i : Nat, ∃ h : i + 1 < xp.length, interval xp x = ((i + 1 : Nat) : Int) ∧
      (xp[0] ≤ x → xp[i] ≤ x) ∧ (x < xp[i + 1] ∨ i + 2 = xp.length) ∧
      (∀ j, ∀ hj : j + 1 < xp.length, xp[j] ≤ x → x < xp[j + 1] → i = j) := by
  have hle := searchsorted_le xp x
  have hsp := searchsorted_spec xp x hs
  refine ⟨min (max (searchsorted_right xp x) 1) (xp.length - 1) - 1, by omega, ?_, ?_, ?_, ?_⟩
  · rw [interval_nat xp x hl]
    congr 1
    omega
  · intro h0
    rw [hsp _ (by omega)]
    have := (hsp 0 (by omega)).mp h0
    omega
  · by_cases h : searchsorted_right xp x = xp.length
    · right; omega
    · left
      by_contra hc
      rw [not_lt, hsp _ (by omega)] at hc
      omega
  · intro j hj h1 h2
    rw [hsp j (by omega)] at h1
    rw [← not_le, hsp (j + 1) (by omega)] at h2
    omega

end random
end RingLib
