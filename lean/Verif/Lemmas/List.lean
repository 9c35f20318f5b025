import Mathlib.Tactic.Ring
import Mathlib.Data.List.Basic
import Mathlib.Algebra.BigOperators.Group.List.Basic
import Verif.Spec.System

/-! List lemmas. -/

namespace RingLib
variable {β γ : Type*}

@[simp] theorem chunks_length (ws : List Nat) (xs : List β) : (chunks ws xs).length = ws.length := by
  induction ws generalizing xs with
  | nil => rfl
  | cons w ws ih => simp [chunks, ih]

theorem chunks_flatten (ws : List Nat) (xs : List β) (h : xs.length = ws.sum) :
    (chunks ws xs).flatten = xs := by
  induction ws generalizing xs with
  | nil => simp [chunks] at *; exact h
  | cons w ws ih =>
    simp only [chunks, List.flatten_cons]
    rw [ih, List.take_append_drop]
    simp at h ⊢; omega

theorem chunks_of_flatten (cs : List (List β)) :
    chunks (cs.map List.length) cs.flatten = cs := by
  induction cs with
  | nil => rfl
  | cons c cs ih => simp [chunks, ih]

theorem chunks_map_length (ws : List Nat) (xs : List β) (h : xs.length = ws.sum) :
    (chunks ws xs).map List.length = ws := by
  induction ws generalizing xs with
  | nil => rfl
  | cons w ws ih =>
    simp only [chunks, List.map_cons, List.length_take]
    simp at h
    rw [ih]
    · congr; omega
    · simp; omega

theorem chunks_getElem? (ws : List Nat) (xs : List β) (i : Nat) :
    (chunks ws xs)[i]? =
      if i < ws.length then some ((xs.drop (ws.take i).sum).take (ws.getD i 0)) else none := by
  induction ws generalizing xs i with
  | nil => simp [chunks]
  | cons w ws ih =>
    cases i with
    | zero => simp [chunks]
    | succ i =>
      simp only [chunks, List.getElem?_cons_succ, ih, List.take_succ_cons, List.sum_cons,
        List.drop_drop, List.length_cons, Nat.add_lt_add_iff_right, List.getD_cons_succ]

theorem chunks_append (ws ws' : List Nat) (xs ys : List β) (h : xs.length = ws.sum) :
    chunks (ws ++ ws') (xs ++ ys) = chunks ws xs ++ chunks ws' ys := by
  induction ws generalizing xs with
  | nil => simp at h; simp [chunks, h]
  | cons w ws ih =>
    simp at h
    simp only [chunks, List.cons_append]
    rw [List.take_append_of_le_length (by omega), List.drop_append_of_le_length (by omega), ih]
    simp; omega

/-- elements of `l` whose index satisfies `p`, starting to count at `n` -/
theorem zipIdx_filter_map_eq (p : Nat → Bool) (l : List β) (n : Nat) :
    ((l.zipIdx n).filter fun x => p x.2).map (·.1) =
      ((List.range' n l.length).filter p).filterMap fun i => l[i - n]? := by
  induction l generalizing n with
  | nil => simp
  | cons a l ih =>
    simp only [List.zipIdx_cons, List.length_cons, List.range'_succ, List.filter_cons]
    have ih := ih (n + 1)
    have e : ((List.range' (n+1) l.length).filter p).filterMap (fun i => (a :: l)[i - n]?) =
        ((List.range' (n+1) l.length).filter p).filterMap (fun i => l[i - (n + 1)]?) := by
      apply List.filterMap_congr
      intro i hi
      rw [List.mem_filter, List.mem_range'_1] at hi
      obtain ⟨k, rfl⟩ : ∃ k, i = n + 1 + k := ⟨i - (n+1), by omega⟩
      rw [show n + 1 + k - n = k + 1 by omega, show n + 1 + k - (n+1) = k by omega]
      simp
    by_cases hp : p n = true
    · simp [hp, ih, e]
    · simp [hp, ih, e]

theorem zipIdx_filter_map_eq0 (p : Nat → Bool) (l : List β) :
    ((l.zipIdx).filter fun x => p x.2).map (·.1) =
      ((List.range l.length).filter p).filterMap fun i => l[i]? := by
  have := zipIdx_filter_map_eq p l 0
  simpa [List.range_eq_range'] using this

theorem filterMap_getElem?_map (f : β → γ) (l : List β) (is : List Nat) :
    (is.filterMap fun i => (l.map f)[i]?) = (is.filterMap fun i => l[i]?).map f := by
  induction is with
  | nil => rfl
  | cons i is ih =>
    simp only [List.getElem?_map] at ih ⊢
    simp only [List.filterMap_cons, ih]
    cases l[i]? <;> simp

theorem filterMap_getElem?_getElem? (l : List β) (is : List Nat) (h : ∀ i ∈ is, i < l.length)
    (j : Nat) : (is.filterMap fun i => l[i]?)[j]? = is[j]?.bind fun i => l[i]? := by
  induction is generalizing j with
  | nil => simp
  | cons i is ih =>
    have hi : i < l.length := h i (by simp)
    rw [List.filterMap_cons, List.getElem?_eq_getElem hi]
    cases j with
    | zero => simp [hi]
    | succ j => simpa using ih (fun k hk => h k (by simp [hk])) j

theorem filterMap_getElem?_length (l : List β) (is : List Nat) (h : ∀ i ∈ is, i < l.length) :
    (is.filterMap fun i => l[i]?).length = is.length := by
  induction is with
  | nil => rfl
  | cons i is ih =>
    have hi : i < l.length := h i (by simp)
    rw [List.filterMap_cons, List.getElem?_eq_getElem hi]
    simp [ih (fun k hk => h k (by simp [hk]))]

theorem filterMap_range_self (l : List β) : ((List.range l.length).filterMap fun i => l[i]?) = l := by
  apply List.ext_getElem?
  intro i
  rw [filterMap_getElem?_getElem? l _ (by simp)]
  by_cases h : i < l.length
  · simp [h]
  · rw [List.getElem?_eq_none (by simpa using h), List.getElem?_eq_none (by simpa using h)]; rfl

theorem range_append (m n : Nat) :
    List.range (m + n) = List.range m ++ (List.range n).map (m + ·) := List.range_add

end RingLib
