import Verif.Model.Callbacks
import Verif.Props.Dict
import Mathlib.Data.List.Perm.Subperm
import Mathlib.Data.Rat.Floor
import Mathlib.Tactic.Linarith
import Mathlib.Tactic.NormNum

/-!
# The queue of parameter sets (C54)
-/

namespace RingLib.ml
open System

variable {R P : Type} [LinearOrder R]

/-! ## Specification -/

/-- The `i`-th inserted element beats the `j`-th: its value is smaller, or equal and it was inserted
earlier. -/
def Before (hist : List (QueueElement R P)) (i j : Nat) : Prop :=
  ∃ a b, hist[i]? = some a ∧ hist[j]? = some b ∧
    (a.value < b.value ∨ (a.value = b.value ∧ i < j))

/-- `q` consists of the `n` best of the inserted elements, best first. -/
def Best (n : Nat) (hist q : List (QueueElement R P)) : Prop :=
  ∃ idx : List Nat, q.map some = idx.map (fun i : Nat => hist[i]?) ∧
    idx.length = min n hist.length ∧ idx.Pairwise (Before hist) ∧
    ∀ i ∈ idx, ∀ j < hist.length, j ∉ idx → Before hist i j

/-! ## Stability of the sort -/

section sorting
variable {α : Type}

theorem pair_sublist_or {a b : α} (hab : a ≠ b) : ∀ {l : List α}, a ∈ l → b ∈ l →
    [a, b].Sublist l ∨ [b, a].Sublist l
  | c :: l, ha, hb => by
    rcases List.mem_cons.1 ha with rfl | ha'
    · rcases List.mem_cons.1 hb with rfl | hb'
      · exact absurd rfl hab
      · exact .inl (by simpa using hb')
    · rcases List.mem_cons.1 hb with rfl | hb'
      · exact .inr (by simpa using ha')
      · rcases pair_sublist_or hab ha' hb' with h | h
        · exact .inl (h.cons _)
        · exact .inr (h.cons _)

theorem not_both_sublist {a b : α} : ∀ {l : List α}, l.Nodup → [a, b].Sublist l →
    ¬ [b, a].Sublist l
  | [], _, h, _ => by simpa using h.length_le
  | c :: l, hn, h, h' => by
    have hc := List.nodup_cons.1 hn
    cases h with
    | cons _ h =>
      cases h' with
      | cons _ h' => exact not_both_sublist hc.2 h h'
      | cons_cons _ h' => exact hc.1 (h.subset (by simp))
    | cons_cons _ h =>
      cases h' with
      | cons _ h' => exact hc.1 (h'.subset (by simp))
      | cons_cons _ h' => exact hc.1 (by simpa using h)

theorem mergeSort_lex (val : Nat → R) {l : List Nat} (hn : l.Nodup)
    (hl : l.Pairwise fun i j => val i = val j → i < j) :
    (l.mergeSort fun i j => decide (val i ≤ val j)).Pairwise
      fun i j => val i < val j ∨ (val i = val j ∧ i < j) := by
  have hp := List.mergeSort_perm l (fun i j => decide (val i ≤ val j))
  have hn' := hp.nodup_iff.2 hn
  have hs : (l.mergeSort fun i j => decide (val i ≤ val j)).Pairwise
      fun i j => decide (val i ≤ val j) = true :=
    List.pairwise_mergeSort (fun a b c hab hbc => by
      simp only [decide_eq_true_eq] at *
      exact le_trans hab hbc) (fun a b => by simpa using le_total (val a) (val b)) l
  rw [List.pairwise_iff_forall_sublist] at hs ⊢
  intro a b hab
  have hle := hs hab
  simp only [decide_eq_true_eq] at hle
  rcases lt_or_eq_of_le hle with h | h
  · exact .inl h
  · refine .inr ⟨h, ?_⟩
    have hne : a ≠ b := by
      have := hab.nodup hn'
      simpa using this
    have ha : a ∈ l := hp.mem_iff.1 (hab.subset (by simp))
    have hb : b ∈ l := hp.mem_iff.1 (hab.subset (by simp))
    rcases pair_sublist_or hne ha hb with h1 | h1
    · rw [List.pairwise_iff_forall_sublist] at hl
      exact hl h1 h
    · exfalso
      refine not_both_sublist hn' hab ?_
      refine List.pair_sublist_mergeSort (fun a b c hab hbc => by
        simp only [decide_eq_true_eq] at *
        exact le_trans hab hbc) (fun a b => by simpa using le_total (val a) (val b)) ?_ h1
      simpa using h.symm.le

end sorting

/-! ## The invariant -/

/-- The queue holds the elements with the positions `idx` of the history `hist`. -/
def Holds (hist q : List (QueueElement R P)) (idx : List Nat) : Prop :=
  q.map some = idx.map (fun i : Nat => hist[i]?)

theorem Before.lt_left {hist : List (QueueElement R P)} {i j : Nat} (h : Before hist i j) :
    i < hist.length := by
  obtain ⟨a, b, ha, _, _⟩ := h
  exact (List.getElem?_eq_some_iff.1 ha).1

theorem Before.ne {hist : List (QueueElement R P)} {i j : Nat} (h : Before hist i j) : i ≠ j := by
  rintro rfl
  obtain ⟨a, b, ha, hb, h⟩ := h
  have : a = b := Option.some.inj (ha.symm.trans hb)
  subst this
  rcases h with h | h
  · exact lt_irrefl _ h
  · exact lt_irrefl _ h.2

theorem Before.append {hist : List (QueueElement R P)} {i j : Nat} (h : Before hist i j)
    (l : List (QueueElement R P)) : Before (hist ++ l) i j := by
  obtain ⟨a, b, ha, hb, h⟩ := h
  refine ⟨a, b, ?_, ?_, h⟩
  · rw [List.getElem?_append_left (List.getElem?_eq_some_iff.1 ha).1, ha]
  · rw [List.getElem?_append_left (List.getElem?_eq_some_iff.1 hb).1, hb]

theorem Holds.lt {hist q : List (QueueElement R P)} {idx : List Nat} (h : Holds hist q idx) :
    ∀ i ∈ idx, i < hist.length := by
  intro i hi
  have : hist[i]? ∈ idx.map (fun i : Nat => hist[i]?) := List.mem_map_of_mem (f := fun i : Nat => hist[i]?) hi
  rw [← h] at this
  obtain ⟨a, _, ha⟩ := List.mem_map.1 this
  exact (List.getElem?_eq_some_iff.1 ha.symm).1

theorem nodup_of_before {hist : List (QueueElement R P)} {idx : List Nat}
    (h : idx.Pairwise (Before hist)) : idx.Nodup := h.imp fun h => h.ne

/-- Sorting the elements at some positions of the history sorts the positions. -/
theorem sort_holds {hist q : List (QueueElement R P)} {idx : List Nat} (h : Holds hist q idx)
    (hn : idx.Nodup)
    (hl : idx.Pairwise fun i j => Before hist i j ∨ i < j) :
    ∃ idx', idx'.Perm idx ∧ Holds hist (Queue.sort q) idx' ∧ idx'.Pairwise (Before hist) := by
  by_cases hq : hist = []
  · subst hq
    have : idx = [] := by
      rcases idx with _ | ⟨i, idx⟩
      · rfl
      · exact absurd (h.lt i (by simp)) (by simp)
    subst this
    have : q = [] := by simpa [Holds] using h
    subst this
    exact ⟨[], .refl _, by simp [Holds, Queue.sort], .nil⟩
  obtain ⟨d, hd⟩ := List.exists_mem_of_ne_nil _ hq
  let elt : Nat → QueueElement R P := fun i => (hist[i]?).getD d
  let val : Nat → R := fun i => (elt i).value
  have helt : ∀ i < hist.length, hist[i]? = some (elt i) := by
    intro i hi
    simp [elt, List.getElem?_eq_getElem hi]
  have hqe : q = idx.map elt := by
    have : q.map some = (idx.map elt).map some := by
      rw [h, List.map_map]
      exact List.map_congr_left fun i hi => helt i (h.lt i hi)
    exact (List.map_injective_iff.2 (Option.some_injective _)) this
  have hmem : ∀ i ∈ idx, i < hist.length := h.lt
  refine ⟨idx.mergeSort fun i j => decide (val i ≤ val j), List.mergeSort_perm _ _, ?_, ?_⟩
  · unfold Holds Queue.sort
    rw [hqe, ← List.map_mergeSort (r := fun i j => decide (val i ≤ val j)) (f := elt)
      (fun _ _ _ _ => rfl), List.map_map]
    refine List.map_congr_left fun i hi => (helt i (hmem i ?_)).symm
    exact (List.mergeSort_perm _ _).mem_iff.1 hi
  · have := mergeSort_lex val hn (hl.imp_of_mem fun {i j} hi hj hij heq => by
      rcases hij with ⟨a, b, ha, hb, h⟩ | hij
      · rw [helt i (hmem i hi)] at ha
        rw [helt j (hmem j hj)] at hb
        have h1 : a.value = val i := by rw [← Option.some.inj ha]
        have h2 : b.value = val j := by rw [← Option.some.inj hb]
        rcases h with h | h
        · rw [h1, h2, heq] at h
          exact absurd h (lt_irrefl _)
        · exact h.2
      · exact hij)
    refine this.imp_of_mem fun {i j} hi hj hij => ?_
    have hi' := hmem i ((List.mergeSort_perm _ _).mem_iff.1 hi)
    have hj' := hmem j ((List.mergeSort_perm _ _).mem_iff.1 hj)
    exact ⟨elt i, elt j, helt i hi', helt j hj', hij⟩

theorem mem_of_full {N : Nat} {idx : List Nat} (hn : idx.Nodup) (hlt : ∀ i ∈ idx, i < N)
    (hlen : idx.length = N) {j : Nat} (hj : j < N) : j ∈ idx := by
  have hsub : idx ⊆ List.range N := fun i hi => List.mem_range.2 (hlt i hi)
  have hp := (hn.subperm hsub).perm_of_length_le (by simp [hlen])
  exact hp.mem_iff.2 (List.mem_range.2 hj)

theorem Holds.append {hist q : List (QueueElement R P)} {idx : List Nat} (h : Holds hist q idx)
    (l : List (QueueElement R P)) : Holds (hist ++ l) q idx := by
  unfold Holds
  rw [h]
  refine List.map_congr_left fun i hi => ?_
  rw [List.getElem?_append_left (h.lt i hi)]

theorem Holds.snoc {hist q : List (QueueElement R P)} {idx : List Nat} (h : Holds hist q idx)
    (e : QueueElement R P) : Holds (hist ++ [e]) (q ++ [e]) (idx ++ [hist.length]) := by
  have := h.append [e]
  unfold Holds at this ⊢
  rw [List.map_append, List.map_append, this]
  simp

/-- One insertion keeps the queue best. -/
theorem insert_best {n : Nat} (hn : 0 < n) {hist q : List (QueueElement R P)}
    (h : Best n hist q) (e : QueueElement R P) :
    ∃ q', Queue.insert n q e = .ok q' ∧ Best n (hist ++ [e]) q' := by
  obtain ⟨idx, hq, hlen, hpw, hout⟩ := h
  have hH : Holds hist q idx := hq
  have hql : q.length = idx.length := by simpa using congrArg List.length hq
  have hlt := hH.lt
  have hnd := nodup_of_before hpw
  have hm : hist.length ∉ idx := fun h => lt_irrefl _ (hlt _ h)
  by_cases hroom : q.length < n
  · -- there is room
    have hfull : idx.length = hist.length := by omega
    have hS := hH.snoc e
    obtain ⟨idx', hp, hh, hb⟩ := sort_holds hS
      (by
        rw [List.nodup_append]
        exact ⟨hnd, by simp, fun a ha b hb => by
          simp only [List.mem_singleton] at hb
          subst hb
          rintro rfl
          exact hm ha⟩)
      (by
        rw [List.pairwise_append]
        refine ⟨hpw.imp fun h => .inl (h.append _), by simp, fun a ha b hb => ?_⟩
        simp only [List.mem_singleton] at hb
        subst hb
        exact .inr (hlt a ha))
    refine ⟨Queue.sort (q ++ [e]), by rw [Queue.insert, if_pos hroom], idx', hh, ?_, hb, ?_⟩
    · rw [hp.length_eq]
      simp only [List.length_append, List.length_singleton]
      omega
    · intro i _ j hj hnot
      refine absurd (hp.mem_iff.2 ?_) hnot
      simp only [List.length_append, List.length_singleton] at hj
      rcases Nat.lt_succ_iff_lt_or_eq.1 hj with hj | hj
      · exact List.mem_append_left _ (mem_of_full hnd hlt hfull hj)
      · simp [hj]
  · have hidx : idx ≠ [] := by
      rintro rfl
      rw [List.length_nil] at hql
      omega
    obtain ⟨init, l, rfl⟩ : ∃ init l, idx = init ++ [l] :=
      ⟨_, _, (List.dropLast_append_getLast hidx).symm⟩
    have hqne : q ≠ [] := by
      rintro rfl
      simp at hql
    obtain ⟨qi, last, rfl⟩ : ∃ qi last, q = qi ++ [last] :=
      ⟨_, _, (List.dropLast_append_getLast hqne).symm⟩
    have hsplit : Holds hist qi init ∧ hist[l]? = some last := by
      unfold Holds at hH ⊢
      rw [List.map_append, List.map_append] at hH
      have hl' : (qi.map some).length = (init.map (fun i : Nat => hist[i]?)).length := by
        simp at hql
        simp [hql]
      have := List.append_inj hH hl'
      refine ⟨this.1, ?_⟩
      simpa using this.2.symm
    have hll : l < hist.length := hlt l (by simp)
    have hge : n ≤ hist.length := by
      simp only [List.length_append, List.length_singleton] at hroom hql hlen
      omega
    by_cases hval : e.value < last.value
    · -- the last one is replaced
      have hS := hsplit.1.snoc e
      have hpwi := (List.pairwise_append.1 hpw)
      have hndi : init.Nodup := nodup_of_before hpwi.1
      have hmi : hist.length ∉ init := fun h => hm (List.mem_append_left _ h)
      obtain ⟨idx', hp, hh, hb⟩ := sort_holds hS
        (by
          rw [List.nodup_append]
          exact ⟨hndi, by simp, fun a ha b hb => by
            simp only [List.mem_singleton] at hb
            subst hb
            rintro rfl
            exact hmi ha⟩)
        (by
          rw [List.pairwise_append]
          refine ⟨hpwi.1.imp fun h => .inl (h.append _), by simp, fun a ha b hb => ?_⟩
          simp only [List.mem_singleton] at hb
          subst hb
          exact .inr (hlt a (List.mem_append_left _ ha)))
      refine ⟨Queue.sort (qi ++ [e]), ?_, idx', hh, ?_, hb, ?_⟩
      · rw [Queue.insert, if_neg hroom]
        simp only [List.getLast?_append, List.getLast?_singleton, Option.some_or, if_pos hval,
          List.dropLast_concat]
      · rw [hp.length_eq]
        simp only [List.length_append, List.length_singleton] at hlen ⊢
        omega
      · intro i hi j hj hnot
        have hi' := hp.mem_iff.1 hi
        have hnot' : j ∉ init ++ [hist.length] := fun h => hnot (hp.mem_iff.2 h)
        simp only [List.mem_append, List.mem_singleton, not_or] at hnot'
        simp only [List.length_append, List.length_singleton] at hj
        have hj' : j < hist.length := by omega
        -- the removed one beats every other one that is not in the queue
        have hlj : l = j ∨ Before hist l j := by
          by_cases h : l = j
          · exact .inl h
          · refine .inr (hout l (by simp) j hj' ?_)
            simp only [List.mem_append, List.mem_singleton, not_or]
            exact ⟨hnot'.1, fun h' => h h'.symm⟩
        rcases List.mem_append.1 hi' with hi' | hi'
        · rcases hlj with rfl | _
          · exact (hpwi.2.2 i hi' l (by simp)).append _
          · by_cases h : l = j
            · subst h
              exact (hpwi.2.2 i hi' l (by simp)).append _
            · refine (hout i (List.mem_append_left _ hi') j hj' ?_).append _
              simp only [List.mem_append, List.mem_singleton, not_or]
              exact ⟨hnot'.1, fun h' => h h'.symm⟩
        · simp only [List.mem_singleton] at hi'
          subst hi'
          have hbj : ∃ b, hist[j]? = some b ∧ e.value < b.value := by
            rcases hlj with rfl | ⟨a, b, ha, hb, h⟩
            · exact ⟨last, hsplit.2, hval⟩
            · have : a = last := Option.some.inj (ha.symm.trans hsplit.2)
              subst this
              refine ⟨b, hb, ?_⟩
              rcases h with h | h
              · exact lt_trans hval h
              · exact h.1 ▸ hval
          obtain ⟨b, hb, hlt'⟩ := hbj
          refine ⟨e, b, by simp, ?_, .inl hlt'⟩
          rw [List.getElem?_append_left hj', hb]
    · -- nothing is stored
      refine ⟨qi ++ [last], ?_, init ++ [l], hH.append _, ?_, hpw.imp fun h => h.append _, ?_⟩
      · rw [Queue.insert, if_neg hroom]
        simp only [List.getLast?_append, List.getLast?_singleton, Option.some_or, if_neg hval]
      · rw [hlen]
        simp only [List.length_append, List.length_singleton]
        omega
      · intro i hi j hj hnot
        simp only [List.length_append, List.length_singleton] at hj
        rcases Nat.lt_succ_iff_lt_or_eq.1 hj with hj | hj
        · exact (hout i hi j hj hnot).append _
        · subst hj
          have hil := hlt i hi
          have : ∃ a, hist[i]? = some a ∧ a.value ≤ last.value := by
            rcases List.mem_append.1 hi with hi' | hi'
            · obtain ⟨a, b, ha, hb, h⟩ := (List.pairwise_append.1 hpw).2.2 i hi' l (by simp)
              have : b = last := Option.some.inj (hb.symm.trans hsplit.2)
              subst this
              refine ⟨a, ha, ?_⟩
              rcases h with h | h
              · exact h.le
              · exact h.1.le
            · simp only [List.mem_singleton] at hi'
              subst hi'
              exact ⟨last, hsplit.2, le_rfl⟩
          obtain ⟨a, ha, hle⟩ := this
          refine ⟨a, e, ?_, by simp, ?_⟩
          · rw [List.getElem?_append_left hil, ha]
          · rcases lt_or_eq_of_le (hle.trans (not_lt.1 hval)) with h | h
            · exact .inl h
            · exact .inr ⟨h, hil⟩

theorem best_nil (n : Nat) : Best (R := R) (P := P) n [] [] :=
  ⟨[], rfl, by simp, .nil, by simp⟩

theorem fold_best {n : Nat} (hn : 0 < n) : ∀ (l : List (QueueElement R P))
    {hist q : List (QueueElement R P)}, Best n hist q →
    ∃ q', l.foldlM (Queue.insert n) q = .ok q' ∧ Best n (hist ++ l) q'
  | [], hist, q, h => ⟨q, rfl, by simpa using h⟩
  | e :: l, hist, q, h => by
    obtain ⟨q1, h1, hb1⟩ := insert_best hn h e
    obtain ⟨q', h2, hb2⟩ := fold_best hn l hb1
    refine ⟨q', ?_, by simpa using hb2⟩
    rw [List.foldlM_cons, h1]
    exact h2

/-- C54: after any sequence of insertions into a queue of positive capacity `n` the queue holds the
`n` smallest elements inserted so far in increasing order, earlier ones first at ties; no insertion
fails. -/
theorem C54_queue {n : Nat} (hn : 0 < n) (hist : List (QueueElement R P)) :
    ∃ q, hist.foldlM (Queue.insert n) [] = .ok q ∧ Best n hist q := by
  simpa using fold_best hn hist (best_nil n)

/-- C54 does not hold for capacity zero: every insertion raises an `IndexError`. -/
theorem C54_zero_fails (ele : QueueElement R P) :
    Queue.insert 0 [] ele = .error .index := rfl

/-- `Best` determines the queue. -/
theorem best_unique {n : Nat} {hist q q' : List (QueueElement R P)} (h : Best n hist q)
    (h' : Best n hist q') : q = q' := by
  obtain ⟨idx, hq, hlen, hpw, hout⟩ := h
  obtain ⟨idx', hq', hlen', hpw', hout'⟩ := h'
  have hasym : ∀ {i j}, Before hist i j → ¬ Before hist j i := by
    rintro i j ⟨a, b, ha, hb, h⟩ ⟨b', a', hb', ha', h'⟩
    have e1 : a = a' := Option.some.inj (ha.symm.trans ha')
    have e2 : b = b' := Option.some.inj (hb.symm.trans hb')
    subst e1; subst e2
    rcases h with h | h <;> rcases h' with h' | h'
    · exact lt_asymm h h'
    · rw [h'.1] at h; exact lt_irrefl _ h
    · rw [h.1] at h'; exact lt_irrefl _ h'
    · exact lt_asymm h.2 h'.2
  have hnd := nodup_of_before hpw
  have hnd' := nodup_of_before hpw'
  have hsub : idx ⊆ idx' := by
    intro i hi
    by_contra hni
    -- some element of `idx'` is not in `idx`
    have : ∃ j ∈ idx', j ∉ idx := by
      by_contra hcon
      push Not at hcon
      have hp := (hnd'.subperm hcon).perm_of_length_le (by omega)
      exact hni (hp.mem_iff.2 hi)
    obtain ⟨j, hj, hnj⟩ := this
    have hHl : Holds hist q idx := hq
    have hHl' : Holds hist q' idx' := hq'
    exact hasym (hout i hi j (hHl'.lt j hj) hnj) (hout' j hj i (hHl.lt i hi) hni)
  have hp := (hnd.subperm hsub).perm_of_length_le (by omega)
  have : idx = idx' := by
    have h1 : idx'.Pairwise (Before hist) := hpw'
    exact List.Perm.eq_of_pairwise
      (fun a b _ _ hab hba => absurd hba (hasym hab)) hpw h1 hp
  subst this
  exact (List.map_injective_iff.2 (Option.some_injective _)) (hq.trans hq'.symm)

example : Queue.insert 2 [⟨1, "a", 0⟩, ⟨3, "b", 1⟩] (⟨1, "c", 2⟩ : QueueElement ℚ String) =
    .ok [⟨1, "a", 0⟩, ⟨1, "c", 2⟩] := by
  simp [Queue.insert, Queue.sort, List.mergeSort, List.MergeSort.Internal.splitInTwo,
    List.merge]

/-! ## The callback -/

section callback
variable [Field R] [IsStrictOrderedRing R]

/-- What the callback inserts without tracked metrics: the values decrease from `v`. -/
def untracked (v : R) (i : Nat) : List (Metric R × P) → List (QueueElement R P)
  | [] => []
  | x :: rest => ⟨v - 1, x.2, i⟩ :: untracked (v - 1) (i + 1) rest

omit [IsStrictOrderedRing R] in
theorem run_untracked : ∀ (l : List (Metric R × P)) (c : SaveParams R P) (i : Nat)
    (q : List (QueueElement R P)), c.track_metrices = none →
    (untracked c.value i l).foldlM (Queue.insert c.last_n_params) c.queue = .ok q →
    ∃ c', c.run i l = .ok c' ∧ c'.queue = q
  | [], c, i, q, _, h => ⟨c, rfl, Except.ok.inj h⟩
  | x :: rest, c, i, q, ht, h => by
    rw [untracked, List.foldlM_cons] at h
    rcases hq : Queue.insert c.last_n_params c.queue ⟨c.value - 1, x.2, i⟩ with er | q1
    · rw [hq] at h
      exact absurd h (by simp [error_bind])
    · rw [hq, ok_bind] at h
      obtain ⟨c', h1, h2⟩ := run_untracked rest { c with queue := q1, value := c.value - 1 } (i + 1)
        q ht h
      refine ⟨c', ?_, h2⟩
      rw [SaveParams.run]
      unfold SaveParams.after_training_step
      rw [ht]
      dsimp only
      rw [hq, ok_bind, ok_bind, ← h1, ht]

omit [IsStrictOrderedRing R] [LinearOrder R] in
theorem untracked_map : ∀ (l : List (Metric R × P)) (v : R) (i : Nat),
    (untracked v i l).map (fun e => (e.params, e.episode)) =
      (l.zipIdx i).map fun x => (x.1.2, x.2)
  | [], _, _ => rfl
  | x :: rest, v, i => by
    rw [untracked, List.map_cons, untracked_map rest, List.zipIdx_cons, List.map_cons]

theorem untracked_lt : ∀ (l : List (Metric R × P)) (v : R) (i : Nat),
    ∀ e ∈ untracked v i l, e.value < v
  | x :: rest, v, i, e, he => by
    rcases List.mem_cons.1 he with rfl | he
    · dsimp only; linarith
    · have := untracked_lt rest _ _ e he
      linarith

theorem untracked_decreasing : ∀ (l : List (Metric R × P)) (v : R) (i : Nat),
    (untracked v i l).Pairwise fun a b => b.value < a.value
  | [], _, _ => .nil
  | x :: rest, v, i => List.pairwise_cons.2
      ⟨fun b hb => untracked_lt rest _ _ b hb, untracked_decreasing rest _ _⟩

end callback

/-- If the values decrease the best ones are the last ones. -/
theorem best_of_decreasing (n : Nat) {hist : List (QueueElement R P)}
    (h : hist.Pairwise fun a b => b.value < a.value) : Best n hist (hist.reverse.take n) := by
  have hbef : ∀ i j : Nat, j < i → i < hist.length → Before hist i j := by
    intro i j hji hi
    refine ⟨hist[i], hist[j], by simp, by simp, .inl ?_⟩
    exact List.pairwise_iff_getElem.1 h j i (by omega) hi hji
  refine ⟨(List.range (min n hist.length)).map fun k => hist.length - 1 - k, ?_, by simp, ?_, ?_⟩
  · apply List.ext_getElem?
    intro k
    rw [List.getElem?_map, List.getElem?_map, List.getElem?_map, List.getElem?_take]
    by_cases hk : k < min n hist.length
    · rw [if_pos (by omega), List.getElem?_reverse (by omega), List.getElem?_range hk]
      have : hist.length - 1 - k < hist.length := by omega
      simp [this]
    · by_cases hk2 : k < n
      · rw [if_pos hk2, List.getElem?_eq_none (by simp; omega),
          List.getElem?_eq_none (by simp; omega)]
        rfl
      · rw [if_neg hk2, List.getElem?_eq_none (by simp; omega)]
        rfl
  · rw [List.pairwise_map]
    refine List.pairwise_lt_range.imp_of_mem fun {a b} ha hb hab => ?_
    rw [List.mem_range] at ha hb
    exact hbef _ _ (by omega) (by omega)
  · intro i hi j hj hnot
    obtain ⟨k, hk, rfl⟩ := List.mem_map.1 hi
    rw [List.mem_range] at hk
    refine hbef _ _ ?_ (by omega)
    by_contra hcon
    refine hnot (List.mem_map.2 ⟨hist.length - 1 - j, List.mem_range.2 (by omega), by omega⟩)

section callback
variable [Field R] [IsStrictOrderedRing R]

/-- C54: without tracked metrics the parameters of the last `n` episodes are kept, the newest
first; the callback does not fail. -/
theorem C54_last {n : Nat} (hn : 0 < n) (eval_every : Nat) (l : List (Metric R × P)) :
    ∃ c', (SaveParams.init (R := R) (P := P) n none eval_every).run 0 l = .ok c' ∧
      c'.queue.map (fun e => (e.params, e.episode)) =
        (l.zipIdx.map fun x => (x.1.2, x.2)).reverse.take n := by
  obtain ⟨q, h1, h2⟩ := C54_queue hn (untracked (0 : R) 0 l)
  obtain ⟨c', h3, h4⟩ := run_untracked l (SaveParams.init (R := R) (P := P) n none eval_every) 0 q
    rfl h1
  refine ⟨c', h3, ?_⟩
  rw [h4, best_unique h2 (best_of_decreasing n (untracked_decreasing l _ _)), List.map_take,
    List.map_reverse, untracked_map]

/-- What is inserted if metrics are tracked and `vals k` is the mean of the metrics of episode `k`. -/
def tracked (eval_every : Nat) (vals : Nat → R) (l : List (Metric R × P)) (i : Nat) :
    List (QueueElement R P) :=
  (l.zipIdx i).map fun x => ⟨if x.2 % eval_every = 0 then vals x.2 else 10 ^ 16, x.1.2, x.2⟩

omit [IsStrictOrderedRing R] in
theorem run_tracked {track : List (List String)} {every : Nat} (he : 0 < every) (vals : Nat → R) :
    ∀ (l : List (Metric R × P)) (c : SaveParams R P) (i : Nat) (q : List (QueueElement R P)),
    c.track_metrices = some track → c.eval_every = every →
    (∀ (k : Nat) (x : Metric R × P), l[k]? = some x → (i + k) % every = 0 →
      meanTracked x.1 track = .ok (vals (i + k))) →
    (tracked every vals l i).foldlM (Queue.insert c.last_n_params) c.queue = .ok q →
    ∃ c', c.run i l = .ok c' ∧ c'.queue = q
  | [], c, i, q, _, _, _, h => ⟨c, rfl, Except.ok.inj h⟩
  | x :: rest, c, i, q, ht, hev, hv, h => by
    rw [tracked, List.zipIdx_cons, List.map_cons, List.foldlM_cons] at h
    have hval : trackedValue c.eval_every i x.1 track =
        .ok (if i % every = 0 then vals i else 10 ^ 16) := by
      unfold trackedValue
      rw [hev, if_neg (by omega)]
      by_cases hi : i % every = 0
      · rw [if_pos hi, if_pos hi]
        exact hv 0 x rfl hi
      · rw [if_neg hi, if_neg hi]
    rcases hq : Queue.insert c.last_n_params c.queue
        ⟨if i % every = 0 then vals i else 10 ^ 16, x.2, i⟩ with er | q1
    · rw [hq] at h
      exact absurd h (by simp [error_bind])
    · rw [hq, ok_bind] at h
      obtain ⟨c', h1, h2⟩ := run_tracked he vals rest { c with queue := q1 } (i + 1) q ht hev
        (fun k y hk hm => by
          have := hv (k + 1) y (by simpa using hk) (by rw [← hm]; congr 1; omega)
          rw [this]; congr 2; omega) h
      refine ⟨c', ?_, h2⟩
      rw [SaveParams.run]
      unfold SaveParams.after_training_step
      rw [ht]
      dsimp only
      rw [hval, ok_bind, hq, ok_bind, ok_bind, ← h1, ht]

omit [LinearOrder R] [IsStrictOrderedRing R] in
theorem meanTracked_ok {m : Metric R} {track : List (List String)} {xs : List R}
    (h : track.mapM (_zoom_into_metrices m) = .ok xs) (hne : track ≠ []) :
    meanTracked m track = .ok (xs.sum / (xs.length : R)) := by
  have hlen : xs.length = track.length := by
    clear hne
    induction track generalizing xs with
    | nil =>
      have : [] = xs := Except.ok.inj h
      simp [← this]
    | cons t ts ih =>
      rw [List.mapM_cons] at h
      rcases h1 : _zoom_into_metrices m t with er | y
      · rw [h1] at h; exact absurd h (by simp [error_bind])
      · rw [h1, ok_bind] at h
        rcases h2 : ts.mapM (_zoom_into_metrices m) with er | ys
        · rw [h2] at h; exact absurd h (by simp [error_bind])
        · rw [h2, ok_bind] at h
          have : y :: ys = xs := Except.ok.inj h
          rw [← this]
          simp [ih h2]
  unfold meanTracked
  rw [h, ok_bind, if_neg (by
    rw [hlen]
    exact fun h => hne (List.length_eq_zero_iff.1 h))]
  rw [List.sum_eq_foldl]

/-- The queue holds the best, evaluated or not, and only evaluated episodes once there are enough
of them. -/
theorem best_tracked {n every : Nat} {vals : Nat → R} {l : List (Metric R × P)}
    {q : List (QueueElement R P)} (h : Best n (tracked every vals l 0) q)
    (hgood : n ≤ ((List.range l.length).filter
      fun k => k % every = 0 ∧ vals k < 10 ^ 16).length) :
    ∀ e ∈ q, e.episode % every = 0 ∧ e.value = vals e.episode := by
  obtain ⟨idx, hq, hlen, hpw, hout⟩ := h
  have hH : Holds (tracked every vals l 0) q idx := hq
  have hget : ∀ k : Nat, k < l.length → ∃ x : Metric R × P, (tracked every vals l 0)[k]? =
      some ⟨if k % every = 0 then vals k else 10 ^ 16, x.2, k⟩ := by
    intro k hk
    exact ⟨l[k], by simp [tracked, hk]⟩
  have hll : (tracked every vals l 0).length = l.length := by simp [tracked]
  have hlt : ∀ i ∈ idx, i < l.length := fun i hi => hll ▸ hH.lt i hi
  intro e he
  have : some e ∈ q.map some := List.mem_map_of_mem (f := some) he
  rw [hq] at this
  obtain ⟨i, hi, hie⟩ := List.mem_map.1 this
  obtain ⟨x, hx⟩ := hget i (hlt i hi)
  rw [hx] at hie
  have hie := Option.some.inj hie
  by_cases hev : i % every = 0
  · rw [if_pos hev] at hie
    subst hie
    exact ⟨hev, rfl⟩
  · exfalso
    set good := (List.range l.length).filter fun k => k % every = 0 ∧ vals k < 10 ^ 16 with hg
    have hgn : good.Nodup := List.nodup_range.filter _
    have hig : i ∉ good := by
      intro hmem
      have := (List.mem_filter.1 hmem).2
      simp only [decide_eq_true_eq] at this
      exact hev this.1
    have : ∃ j ∈ good, j ∉ idx := by
      by_contra hcon
      push Not at hcon
      have hsub : (i :: good) ⊆ idx := by
        intro j hj
        rcases List.mem_cons.1 hj with rfl | hj
        · exact hi
        · exact hcon j hj
      have := ((List.nodup_cons.2 ⟨hig, hgn⟩).subperm hsub).length_le
      simp only [List.length_cons] at this
      omega
    obtain ⟨j, hj, hnj⟩ := this
    have hj' := List.mem_filter.1 hj
    have hjl := List.mem_range.1 hj'.1
    have hj2 := hj'.2
    simp only [decide_eq_true_eq] at hj2
    obtain ⟨a, b, ha, hb, hab⟩ := hout i hi j (by rw [hll]; exact hjl) hnj
    obtain ⟨y, hy⟩ := hget j hjl
    have e1 := Option.some.inj (ha.symm.trans hx)
    have e2 := Option.some.inj (hb.symm.trans hy)
    rw [if_neg hev] at e1
    rw [if_pos hj2.1] at e2
    rw [e1, e2] at hab
    dsimp only at hab
    rcases hab with h | h
    · exact lt_asymm h hj2.2
    · rw [h.1] at hj2; exact lt_irrefl _ hj2.2

/-- C54, with tracked metrics.  `vals k` is the mean of the tracked metrics of the evaluated episode
`k`.  The queue holds the `n` best elements, where episodes that are not evaluated count `10 ^ 16`;
as soon as `n` evaluated episodes have a mean below that, only evaluated episodes are stored.
Missing: the same before there are `n` evaluated episodes, see `C54_unevaluated_fails`. -/
theorem C54_tracked_partial {n every : Nat} (hn : 0 < n) (he : 0 < every)
    {track : List (List String)} (htrack : track ≠ []) (l : List (Metric R × P)) (vals : Nat → R)
    (hv : ∀ (k : Nat) (x : Metric R × P), l[k]? = some x → k % every = 0 →
      ∃ xs, track.mapM (_zoom_into_metrices x.1) = .ok xs ∧ vals k = xs.sum / (xs.length : R)) :
    ∃ c', (SaveParams.init (R := R) (P := P) n (some track) every).run 0 l = .ok c' ∧
      Best n (l.zipIdx.map fun x =>
        ⟨if x.2 % every = 0 then vals x.2 else 10 ^ 16, x.1.2, x.2⟩) c'.queue ∧
      (n ≤ ((List.range l.length).filter
          fun k => k % every = 0 ∧ vals k < 10 ^ 16).length →
        ∀ e ∈ c'.queue, e.episode % every = 0 ∧ e.value = vals e.episode) := by
  obtain ⟨q, h1, h2⟩ := C54_queue hn (tracked every vals l 0)
  obtain ⟨c', h3, h4⟩ := run_tracked he vals l
    (SaveParams.init (R := R) (P := P) n (some track) every) 0 q rfl rfl
    (fun k x hx hk => by
      rw [Nat.zero_add] at hk ⊢
      obtain ⟨xs, hxs, hval⟩ := hv k x hx hk
      rw [meanTracked_ok hxs htrack, hval]) h1
  exact ⟨c', h3, h4 ▸ h2, h4 ▸ best_tracked h2⟩

/-- Metrics `{"mae": x}`. -/
def exMetric (x : ℚ) : Metric ℚ := .node [("mae", .leaf x)]

example : [["mae"]].mapM (_zoom_into_metrices (exMetric 3)) = .ok [3] := by
  simp [exMetric, _zoom_into_metrices, List.lookup, pure, Except.pure, bind, Except.bind]

/-- C54 fails before enough episodes are evaluated: with room for three parameter sets and the
metrics evaluated every fifth episode, the second episode is stored although it was never
evaluated. -/
theorem C54_unevaluated_fails :
    ∃ c', (SaveParams.init (R := ℚ) (P := String) 3 (some [["mae"]]) 5).run 0
        [(exMetric 3, "p0"), (exMetric 2, "p1")] = .ok c' ∧
      c'.queue.map (fun e => (e.params, e.episode, e.value)) =
        [("p0", 0, 3), ("p1", 1, 10 ^ 16)] := by
  obtain ⟨c', h1, h2, _⟩ := C54_tracked_partial (R := ℚ) (P := String) (n := 3) (every := 5)
    (by decide) (by decide) (track := [["mae"]]) (by simp)
    [(exMetric 3, "p0"), (exMetric 2, "p1")] (fun _ => 3) (by
      intro k x hx hk
      have : k < 2 := (List.getElem?_eq_some_iff.1 hx).1
      have : k = 0 := by omega
      subst this
      simp only [List.getElem?_cons_zero, Option.some.injEq] at hx
      subst hx
      exact ⟨[3], by simp [exMetric, _zoom_into_metrices, List.lookup, pure, Except.pure, bind, Except.bind],
        by norm_num⟩)
  refine ⟨c', h1, ?_⟩
  have hb : Best 3 [(⟨3, "p0", 0⟩ : QueueElement ℚ String), ⟨10 ^ 16, "p1", 1⟩]
      [⟨3, "p0", 0⟩, ⟨10 ^ 16, "p1", 1⟩] := by
    refine ⟨[0, 1], rfl, rfl, ?_, ?_⟩
    · refine List.pairwise_pair.2 ⟨_, _, rfl, rfl, .inl ?_⟩
      norm_num
    · intro i _ j hj hnot
      simp at hj hnot
      omega
  have : [(exMetric 3, "p0"), (exMetric 2, "p1")].zipIdx.map (fun x =>
      (⟨if x.2 % 5 = 0 then 3 else 10 ^ 16, x.1.2, x.2⟩ : QueueElement ℚ String)) =
      [⟨3, "p0", 0⟩, ⟨10 ^ 16, "p1", 1⟩] := by
    simp [List.zipIdx]
  rw [this] at h2
  rw [best_unique h2 hb]
  rfl

end callback

end RingLib.ml
