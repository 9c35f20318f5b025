import Verif.Model.Batch
import Mathlib.Data.Nat.Prime.Basic
import Mathlib.Data.Nat.GCD.Basic
import Mathlib.Data.Nat.Factors
import Mathlib.Data.List.Sort

/-!
# C47: prime factorisation and greatest common divisor
-/

namespace RingLib
namespace utils

/-- no number from `2` to `d - 1` divides `n` -/
def NoSmall (d n : Nat) : Prop := ∀ m, 2 ≤ m → m < d → ¬ m ∣ n

theorem NoSmall.div {d n k : Nat} (h : NoSmall d n) (hk : k ∣ n) : NoSmall d k :=
  fun m h1 h2 h3 => h m h1 h2 (h3.trans hk)

theorem NoSmall.prime {d n : Nat} (h : NoSmall d n) (hd : 2 ≤ d) (hdn : d ∣ n) : d.Prime := by
  rw [Nat.prime_def_lt]
  refine ⟨hd, ?_⟩
  intro m hm hmd
  by_contra hne
  have h0 : m ≠ 0 := by
    rintro rfl
    have := Nat.eq_zero_of_zero_dvd hmd
    omega
  exact h m (by omega) hm (hmd.trans hdn)

theorem NoSmall.prime_of_sq {d n : Nat} (h : NoSmall d n) (hn : 1 < n) (hlt : n < d * d) :
    n.Prime := by
  rw [Nat.prime_def_minFac]
  refine ⟨hn, ?_⟩
  by_contra hne
  have hp := Nat.minFac_prime (n := n) (by omega)
  have hd := Nat.minFac_dvd n
  have h1 : d ≤ n.minFac := by
    by_contra hc
    exact h _ hp.two_le (by omega) hd
  have h2 := Nat.minFac_sq_le_self (n := n) (by omega) (by
    intro hpr
    exact hne (Nat.prime_def_minFac.1 hpr).2)
  have : d * d ≤ n.minFac ^ 2 := by rw [sq]; exact Nat.mul_le_mul h1 h1
  omega

/-- what the factors found so far satisfy -/
structure Factors (N d n : Nat) (acc : List Nat) : Prop where
  pos : 0 < n
  prod : acc.prod * n = N
  prime : ∀ p ∈ acc, p.Prime
  sorted : acc.Pairwise (· ≤ ·)
  le : ∀ p ∈ acc, p ≤ d
  small : NoSmall d n

theorem primesInner_ok {N d : Nat} (hd : 2 ≤ d) : ∀ (fuel n : Nat) (acc : List Nat), n ≤ fuel →
    Factors N d n acc → ∃ n' acc', primesInner fuel d n acc = some (n', acc') ∧ n' ≤ n ∧
      Factors N d n' acc' ∧ ¬ d ∣ n' := by
  intro fuel
  induction fuel with
  | zero => intro n acc hf h; have := h.pos; omega
  | succ fuel ih =>
    intro n acc hf h
    unfold primesInner
    by_cases hm : n % d = 0
    · rw [if_pos hm]
      have hdn : d ∣ n := Nat.dvd_of_mod_eq_zero hm
      have hpos := h.pos
      have hlt : n / d < n := Nat.div_lt_self h.pos (by omega)
      have hge : 0 < n / d := Nat.div_pos (Nat.le_of_dvd h.pos hdn) (by omega)
      obtain ⟨n', acc', e, hle, hF, hnd⟩ := ih (n / d) (acc ++ [d]) (by omega)
        { pos := hge
          prod := by
            rw [List.prod_append, List.prod_singleton, mul_assoc, Nat.mul_div_cancel' hdn, h.prod]
          prime := by
            intro p hp
            rcases List.mem_append.1 hp with hp | hp
            · exact h.prime p hp
            · rw [List.mem_singleton.1 hp]
              exact h.small.prime hd hdn
          sorted := by
            rw [List.pairwise_append]
            refine ⟨h.sorted, List.pairwise_singleton _ _, ?_⟩
            intro a ha b hb
            rw [List.mem_singleton.1 hb]
            exact h.le a ha
          le := by
            intro p hp
            rcases List.mem_append.1 hp with hp | hp
            · exact h.le p hp
            · exact (List.mem_singleton.1 hp).le
          small := h.small.div (Nat.div_dvd_of_dvd hdn) }
      exact ⟨n', acc', e, by omega, hF, hnd⟩
    · rw [if_neg hm]
      exact ⟨n, acc, rfl, le_rfl, h, fun hdn => hm (Nat.mod_eq_zero_of_dvd hdn)⟩

theorem primesOuter_ok {N : Nat} : ∀ (fuel d n : Nat) (acc : List Nat), 2 ≤ d → 1 ≤ fuel →
    2 * n + 2 - d ≤ fuel → Factors N d n acc →
    ∃ l, primesOuter fuel d n acc = some l ∧ l.prod = N ∧ (∀ p ∈ l, p.Prime) ∧
      l.Pairwise (· ≤ ·) := by
  intro fuel
  induction fuel with
  | zero => intro d n acc _ h; omega
  | succ fuel ih =>
    intro d n acc hd _ hf h
    unfold primesOuter
    by_cases hc : d * d ≤ n
    · rw [if_pos hc]
      have h2 : 2 * d ≤ n := (Nat.mul_le_mul_right d hd).trans hc
      obtain ⟨n', acc', e, hle, hF, hnd⟩ := primesInner_ok hd fuel n acc (by omega) h
      rw [e]
      dsimp only
      refine ih (d + 1) n' acc' (by omega) (by omega) (by omega) { hF with
        le := fun p hp => (hF.le p hp).trans (by omega)
        small := ?_ }
      intro m h1 h2' h3
      rcases Nat.lt_succ_iff_lt_or_eq.1 h2' with hlt | rfl
      · exact hF.small m h1 hlt h3
      · exact hnd h3
    · rw [if_neg hc]
      refine ⟨_, rfl, ?_⟩
      by_cases hn : n > 1
      · rw [if_pos hn]
        have hp : n.Prime := h.small.prime_of_sq hn (by omega)
        have hdn : d ≤ n := by
          by_contra hlt
          exact h.small n (by omega) (by omega) dvd_rfl
        refine ⟨by rw [List.prod_append, List.prod_singleton, h.prod], ?_, ?_⟩
        · intro p hp'
          rcases List.mem_append.1 hp' with hp' | hp'
          · exact h.prime p hp'
          · rw [List.mem_singleton.1 hp']; exact hp
        · rw [List.pairwise_append]
          refine ⟨h.sorted, List.pairwise_singleton _ _, ?_⟩
          intro a ha b hb
          rw [List.mem_singleton.1 hb]
          exact (h.le a ha).trans hdn
      · rw [if_neg hn]
        have : n = 1 := by have := h.pos; omega
        have hprod := h.prod
        rw [this, mul_one] at hprod
        exact ⟨hprod, h.prime, h.sorted⟩

/-- The loops of `primes` end. -/
theorem primesOuter_isSome (n : Nat) : (primesOuter (2 * n + 2) 2 n []).isSome := by
  rcases Nat.eq_zero_or_pos n with rfl | hn
  · rfl
  · obtain ⟨l, e, -⟩ := primesOuter_ok (N := n) (2 * n + 2) 2 n [] le_rfl (by omega) (by omega)
      ⟨hn, by simp, by simp, List.Pairwise.nil, by simp, fun m h1 h2 => by omega⟩
    rw [e]; rfl

/-- C47: `primes n` is a non-decreasing list of primes with product `n`; for `n = 1` it is empty. -/
theorem C47_primes {n : Nat} (hn : 1 ≤ n) :
    (primes n).prod = n ∧ (∀ p ∈ primes n, p.Prime) ∧ (primes n).Pairwise (· ≤ ·) := by
  obtain ⟨l, e, h⟩ := primesOuter_ok (N := n) (2 * n + 2) 2 n [] le_rfl (by omega) (by omega)
    ⟨hn, by simp, by simp, List.Pairwise.nil, by simp, fun m h1 h2 => by omega⟩
  unfold primes
  rw [e]
  exact h

/-- C47: there is no other such list. -/
theorem C47_unique {n : Nat} (hn : 1 ≤ n) (l : List Nat) (h1 : l.prod = n)
    (h2 : ∀ p ∈ l, p.Prime) (h3 : l.Pairwise (· ≤ ·)) : l = primes n := by
  obtain ⟨a, b, c⟩ := C47_primes hn
  have p1 := Nat.primeFactorsList_unique h1 h2
  have p2 := Nat.primeFactorsList_unique a b
  exact (p1.trans p2.symm).eq_of_pairwise' h3 c

/-- C47: `gcd a b` divides both numbers and every common divisor divides it. -/
theorem C47_gcd (a b : Nat) : gcd a b ∣ a ∧ gcd a b ∣ b ∧ ∀ k, k ∣ a → k ∣ b → k ∣ gcd a b := by
  induction b using Nat.strong_induction_on generalizing a with
  | _ b ih =>
    unfold gcd
    split
    · rename_i h
      subst h
      exact ⟨dvd_rfl, dvd_zero a, fun k h _ => h⟩
    · rename_i h
      obtain ⟨h1, h2, h3⟩ := ih (a % b) (Nat.mod_lt _ (Nat.pos_of_ne_zero h)) b
      refine ⟨?_, h1, ?_⟩
      · exact (Nat.dvd_mod_iff h1).1 h2
      · intro k ha hb
        exact h3 k hb ((Nat.dvd_mod_iff hb).2 ha)

example : primes 84 = [2, 2, 3, 7] ∧ primes 97 = [97] ∧ primes 1 = [] := by decide
example : gcd 84 36 = 12 := by simp [gcd]

end utils
end RingLib
