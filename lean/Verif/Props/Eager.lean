import Verif.Props.Batch

/-!
# C43: epochs of the eager generator
-/

namespace RingLib
namespace generator
open utils System

variable {β : Type}

/-- the data after `e` shuffles, or the data itself if it is not shuffled -/
def epochData (shuf : Nat → List β → List β) (shuffle : Bool) (data : List β) : Nat → List β
  | 0 => data
  | e + 1 => if shuffle then shuf e (epochData shuf shuffle data e)
    else epochData shuf shuffle data e

theorem epochData_perm {shuf : Nat → List β → List β} (hs : ∀ k l, (shuf k l).Perm l)
    (shuffle : Bool) (data : List β) (e : Nat) : (epochData shuf shuffle data e).Perm data := by
  induction e with
  | zero => exact List.Perm.refl _
  | succ e ih =>
    unfold epochData
    split
    · exact (hs _ _).trans ih
    · exact ih

/-- batch `j` of an epoch -/
def slice (bs j : Nat) (data : List β) : List β := (data.drop (j * bs)).take bs

theorem slice_length {bs j : Nat} {data : List β} (h : j < data.length / bs) :
    (slice bs j data).length = bs := by
  unfold slice
  rw [List.length_take, List.length_drop]
  have h1 : (j + 1) * bs ≤ data.length :=
    (Nat.mul_le_mul_right bs h).trans (Nat.div_mul_le_self _ _)
  rw [Nat.succ_mul] at h1
  omega

/-- the state after `c` calls -/
def stateAt (shuf : Nat → List β → List β) (shuffle : Bool) (data : List β) (B c : Nat) :
    EagerState β :=
  let e := if c % B = 0 then c / B else c / B + 1
  ⟨epochData shuf shuffle data e, c % B, if shuffle then e else 0⟩

theorem eagerStep_ok {shuf : Nat → List β → List β} (hs : ∀ k l, (shuf k l).Perm l)
    (shuffle : Bool) (data : List β) (bs c : Nat) (hbs : 0 < bs) (hd : bs ≤ data.length) :
    eagerStep shuf shuffle bs (data.length / bs)
        (stateAt shuf shuffle data (data.length / bs) c) =
      .ok (slice bs (c % (data.length / bs))
          (epochData shuf shuffle data (c / (data.length / bs) + 1)),
        stateAt shuf shuffle data (data.length / bs) (c + 1)) := by
  set B := data.length / bs with hB
  have hB0 : 0 < B := Nat.div_pos hd hbs
  have hcB : c % B < B := Nat.mod_lt _ hB0
  have hlen : ∀ e, (epochData shuf shuffle data e).length = data.length :=
    fun e => (epochData_perm hs shuffle data e).length_eq
  have hst : (if shuffle = true ∧ (stateAt shuf shuffle data B c).i = 0 then
      { stateAt shuf shuffle data B c with
        data := shuf (stateAt shuf shuffle data B c).shuffles (stateAt shuf shuffle data B c).data
        shuffles := (stateAt shuf shuffle data B c).shuffles + 1 }
      else stateAt shuf shuffle data B c) =
      ⟨epochData shuf shuffle data (c / B + 1), c % B, if shuffle then c / B + 1 else 0⟩ := by
    unfold stateAt
    dsimp only
    by_cases h0 : c % B = 0
    · rw [if_pos h0]
      cases shuffle with
      | true => simp [h0, epochData]
      | false => simp [epochData]
    · rw [if_neg h0]
      simp [h0]
  unfold eagerStep
  dsimp only
  rw [hst]
  dsimp only
  have hslice : ((epochData shuf shuffle data (c / B + 1)).take ((c % B + 1) * bs)).drop
      (c % B * bs) = slice bs (c % B) (epochData shuf shuffle data (c / B + 1)) := by
    unfold slice
    rw [List.drop_take]
    congr 1
    rw [Nat.succ_mul]
    omega
  rw [hslice]
  have hl : (slice bs (c % B) (epochData shuf shuffle data (c / B + 1))).length = bs :=
    slice_length (by rw [hlen]; exact hcB)
  rw [if_neg (by intro h; rw [h] at hl; simp at hl; omega), if_neg (by omega)]
  congr 2
  unfold stateAt
  have hmod : (c % B + 1) % B = (c + 1) % B := by rw [Nat.add_mod, Nat.mod_mod, ← Nat.add_mod]
  rw [hmod]
  dsimp only
  have hdm := Nat.div_add_mod c B
  by_cases h1 : (c + 1) % B = 0
  · have hdiv : (c + 1) / B = c / B + 1 := by
      have h2 : c % B + 1 = B := by
        by_contra hne
        rw [← hmod, Nat.mod_eq_of_lt (by omega)] at h1
        omega
      have h3 : c + 1 = B * (c / B + 1) := by rw [Nat.mul_add, mul_one]; omega
      rw [h3, Nat.mul_div_cancel_left _ hB0]
    rw [if_pos h1, hdiv]
  · have hdiv : (c + 1) / B = c / B := by
      have h2 : c % B + 1 < B := by
        by_contra hne
        have : c % B + 1 = B := by omega
        rw [← hmod, this, Nat.mod_self] at h1
        exact h1 rfl
      have h3 : c + 1 = (c % B + 1) + B * (c / B) := by omega
      rw [h3, Nat.add_mul_div_left _ _ hB0, Nat.div_eq_of_lt h2, Nat.zero_add]
    rw [if_neg h1, hdiv]

theorem eagerRun_ok {shuf : Nat → List β → List β} (hs : ∀ k l, (shuf k l).Perm l)
    (shuffle : Bool) (data : List β) (bs : Nat) (hbs : 0 < bs) (hd : bs ≤ data.length) (n c : Nat) :
    eagerRun shuf shuffle bs (data.length / bs) n
        (stateAt shuf shuffle data (data.length / bs) c) =
      .ok ((List.range' c n).map fun c : Nat => slice bs (c % (data.length / bs))
          (epochData shuf shuffle data (c / (data.length / bs) + 1)),
        stateAt shuf shuffle data (data.length / bs) (c + n)) := by
  induction n generalizing c with
  | zero => rfl
  | succ n ih =>
    rw [eagerRun, eagerStep_ok hs shuffle data bs c hbs hd, ok_bind, ih (c + 1), ok_bind,
      List.range'_succ, List.map_cons, Nat.add_right_comm]
    rfl

theorem slices_flatten (bs B : Nat) (data : List β) (h : B * bs ≤ data.length) :
    ((List.range B).map fun j : Nat => slice bs j data).flatten = data.take (B * bs) := by
  induction B with
  | zero => simp
  | succ B ih =>
    rw [Nat.succ_mul] at h
    rw [List.range_succ, List.map_append, List.flatten_append, ih (by omega)]
    simp only [slice, List.map_cons, List.map_nil, List.flatten_cons, List.flatten_nil,
      List.append_nil]
    rw [Nat.succ_mul, List.take_add]

/-- An epoch: the data is in some order, and the batches are the consecutive groups of `bs` samples in
that order, the last incomplete group being left out. -/
def IsEpoch (data : List β) (bs : Nat) (batches : List (List β)) : Prop :=
  ∃ order : List β, order.Perm data ∧ batches.length = data.length / bs ∧
    (∀ b ∈ batches, b.length = bs) ∧
    batches.flatten = order.take (data.length - data.length % bs)

/-- C43: an eager generator never fails on a data set that is as large as a batch. The batches come in
epochs: batches `e B`, …, `e B + B - 1` with `B = len // batchsize` are one epoch. The stored samples
stay the same, up to order. With shuffling, the order of an epoch is that of the one before, shuffled
once; without, it never changes. -/
theorem C43_epochs {shuf : Nat → List β → List β} (hs : ∀ k l, (shuf k l).Perm l) (shuffle : Bool)
    (data : List β) (bs n : Nat) (hbs : 0 < bs) (hd : bs ≤ data.length) :
    ∃ st B batches st', eager_gen_from_list data bs = .ok (st, B) ∧ B = data.length / bs ∧
      eagerRun shuf shuffle bs B n st = .ok (batches, st') ∧ batches.length = n ∧
      st'.data.Perm data ∧
      ∀ e, (e + 1) * B ≤ n → IsEpoch data bs ((batches.drop (e * B)).take B) ∧
        ((batches.drop (e * B)).take B).flatten =
          (epochData shuf shuffle data (e + 1)).take (data.length - data.length % bs) := by
  have h0 : (⟨data, 0, 0⟩ : EagerState β) = stateAt shuf shuffle data (data.length / bs) 0 := by
    unfold stateAt
    cases shuffle <;> simp [epochData]
  refine ⟨⟨data, 0, 0⟩, data.length / bs, (List.range' 0 n).map fun c : Nat =>
    slice bs (c % (data.length / bs)) (epochData shuf shuffle data (c / (data.length / bs) + 1)),
    stateAt shuf shuffle data (data.length / bs) (0 + n), if_neg (by omega), rfl, ?_, ?_, ?_, ?_⟩
  · rw [h0]
    exact eagerRun_ok hs shuffle data bs hbs hd n 0
  · simp
  · exact epochData_perm hs shuffle data _
  · intro e he
    set B := data.length / bs with hB
    have hB0 : 0 < B := Nat.div_pos hd hbs
    have hBs : data.length - data.length % bs = B * bs := by
      have := Nat.div_add_mod data.length bs
      rw [← hB, mul_comm] at this
      omega
    have hperm := epochData_perm hs shuffle data (e + 1)
    have hle : B * bs ≤ (epochData shuf shuffle data (e + 1)).length := by
      rw [hperm.length_eq, ← hBs]
      omega
    have hbatch : (((List.range' 0 n).map fun c : Nat => slice bs (c % B)
          (epochData shuf shuffle data (c / B + 1))).drop (e * B)).take B =
        (List.range B).map fun j : Nat => slice bs j (epochData shuf shuffle data (e + 1)) := by
      rw [Nat.succ_mul] at he
      apply List.ext_getElem
      · simp
        omega
      · intro j h1 h2
        have hj : j < B := by simpa using h2
        simp only [List.getElem_take, List.getElem_drop, List.getElem_map, List.getElem_range',
          List.getElem_range, Nat.zero_add, one_mul]
        have e1 : (e * B + j) % B = j := by
          rw [Nat.mul_comm, Nat.mul_add_mod, Nat.mod_eq_of_lt hj]
        have e2 : (e * B + j) / B = e := by
          rw [Nat.add_comm, Nat.add_mul_div_right _ _ hB0, Nat.div_eq_of_lt hj, Nat.zero_add]
        rw [e1, e2]
    rw [hbatch]
    refine ⟨⟨epochData shuf shuffle data (e + 1), hperm, by simp [hB], ?_, ?_⟩, ?_⟩
    · intro b hb
      obtain ⟨j, hj, rfl⟩ := List.mem_map.1 hb
      apply slice_length
      rw [hperm.length_eq]
      exact List.mem_range.1 hj
    · rw [slices_flatten bs B _ hle, hBs]
    · rw [slices_flatten bs B _ hle, hBs]

/-- C43: within an epoch no sample is handed out twice, and `len - len mod batchsize` different
samples are. -/
theorem C43_once {data : List β} {bs : Nat} {batches : List (List β)} (h : IsEpoch data bs batches)
    (hn : data.Nodup) : batches.flatten.Nodup ∧ batches.Pairwise List.Disjoint ∧
      batches.flatten.length = data.length - data.length % bs ∧ ∀ x ∈ batches.flatten, x ∈ data := by
  obtain ⟨order, hp, -, -, hf⟩ := h
  have hnd : batches.flatten.Nodup := by
    rw [hf]
    exact (hp.nodup_iff.2 hn).sublist (List.take_sublist _ _)
  refine ⟨hnd, (List.nodup_flatten.1 hnd).2, ?_, ?_⟩
  · rw [hf, List.length_take, hp.length_eq]
    omega
  · intro x hx
    rw [hf] at hx
    exact hp.mem_iff.1 (List.mem_of_mem_take hx)

/-- C43: with a batch size larger than the data set the first call fails (`to_eager_gen` rejects
this). -/
theorem C43_too_large (shuf : Nat → List β → List β) (hs : ∀ k l, (shuf k l).Perm l) (shuffle : Bool)
    (data : List β) (bs : Nat) (hd : data.length < bs) (hne : data ≠ []) :
    eagerStep shuf shuffle bs (data.length / bs) ⟨data, 0, 0⟩ = .error .zeroDivision := by
  unfold eagerStep
  dsimp only
  have h0 : data.length / bs = 0 := Nat.div_eq_of_lt hd
  cases shuffle with
  | true =>
    have hne' : shuf 0 data ≠ [] := by
      intro h
      have := (hs 0 data).length_eq
      rw [h] at this
      exact hne (List.eq_nil_of_length_eq_zero this.symm)
    have : bs ≠ 0 := by omega
    simp [h0, hne', this]
  | false =>
    have : bs ≠ 0 := by omega
    simp [h0, hne, this]

/-- The conditions can be met: seven samples in batches of three, the order being reversed at every
epoch. -/
example : (eagerRun (fun _ l => l.reverse) true 3 2 4 ⟨[0, 1, 2, 3, 4, 5, 6], 0, 0⟩).map (·.1) =
    .ok [[6, 5, 4], [3, 2, 1], [0, 1, 2], [3, 4, 5]] := by decide
example : ∀ (_ : Nat) (l : List Nat), (l.reverse).Perm l := fun _ l => l.reverse_perm

end generator
end RingLib
