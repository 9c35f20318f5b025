import Verif.Model.OnnxExport
import Verif.Lemmas.Scan
import Mathlib.Tactic.Linarith
import Mathlib.Tactic.NormNum

/-!
# C108: a validated export computes what the function computes
-/

namespace RingLib
namespace ml
open System

/-! ## Specification -/

/-- two arrays of one shape whose entries differ by less than the tolerance -/
def SameUpTo (a b : NdArr) : Prop :=
  a.shape = b.shape ∧ ∀ idx, List.Forall₂ (· < ·) idx a.shape → |a.val idx - b.val idx| ≤ 1e-5 + 1e-5 * |b.val idx|

/-! ## Proofs -/

theorem mem_indices {s idx : List Nat} : idx ∈ indices s ↔ List.Forall₂ (· < ·) idx s := by
  induction s generalizing idx with
  | nil =>
    rw [indices, List.mem_singleton]
    exact ⟨fun h => by rw [h]; exact .nil, fun h => by cases h; rfl⟩
  | cons n s ih =>
    simp only [indices, List.mem_flatMap, List.mem_range, List.mem_map]
    constructor
    · rintro ⟨i, hi, r, hr, rfl⟩
      exact .cons hi (ih.1 hr)
    · intro h
      cases h with
      | cons h1 h2 => exact ⟨_, h1, _, ih.2 h2, rfl⟩

theorem bdim_self (s : List Nat) : bdim s s = some s := by
  induction s with
  | nil => rfl
  | cons x s ih => simp [bdim, ih]

theorem bget_self {a : NdArr} {idx : List Nat} (h : List.Forall₂ (· < ·) idx a.shape) : a.bget idx = a.val idx := by
  have key : ∀ {i s : List Nat}, List.Forall₂ (· < ·) i s → List.zipWith (fun d i => if d = 1 then 0 else i) s i = i := by
    intro i s hh
    induction hh with
    | nil => rfl
    | @cons x y l1 l2 h1 h2 ih =>
      rw [List.zipWith_cons_cons, ih]
      congr 1
      split
      · omega
      · rfl
  have hlen : ∀ {i s : List Nat}, List.Forall₂ (· < ·) i s → i.length = s.length := by
    intro i s hh
    induction hh with
    | nil => rfl
    | cons _ _ ih => rw [List.length_cons, List.length_cons, ih]
  unfold NdArr.bget
  rw [hlen h, Nat.sub_self, List.drop_zero, key h]

theorem allclose_same {a b : NdArr} (h : a.shape = b.shape) : ∃ r, allclose a b = .ok r ∧ (r = true ↔ SameUpTo a b) := by
  unfold allclose
  rw [← h, bdim_self]
  refine ⟨_, rfl, ?_⟩
  rw [@decide_eq_true_iff _ (Classical.propDecidable _), List.reverse_reverse]
  constructor
  · intro hh
    refine ⟨h, fun idx hi => ?_⟩
    have := hh idx (mem_indices.2 hi)
    rwa [bget_self hi, bget_self (h ▸ hi)] at this
  · rintro ⟨-, hh⟩ idx hi
    have hi := mem_indices.1 hi
    rw [bget_self hi, bget_self (h ▸ hi)]
    exact hh idx hi

theorem compare_ok {l : List (NdArr × NdArr)} (hs : ∀ x ∈ l, x.1.shape = x.2.shape) :
    compareOutputs l = .ok () ↔ ∀ x ∈ l, SameUpTo x.1 x.2 := by
  induction l with
  | nil => simp [compareOutputs]
  | cons x xs ih =>
    obtain ⟨r, h1, h2⟩ := allclose_same (hs x (by simp))
    have ih := ih fun y hy => hs y (by simp [hy])
    unfold compareOutputs
    rw [h1]
    simp only [ok_bind, List.forall_mem_cons, ← ih, ← h2]
    cases r with
    | true => simp [pyAssert]; rfl
    | false =>
      simp [pyAssert]
      intro h
      cases h

theorem renamed_fold {pre olds news : List String} (hl : olds.length = news.length) (hp : ∀ x ∈ pre, x ∉ olds)
    (hn : olds.Nodup) (hc : ∀ i j, i < j → ∀ (hi : i < news.length) (hj : j < olds.length), news[i] ≠ olds[j]) :
    renameAll olds news (pre ++ olds) = pre ++ news := by
  induction olds generalizing pre news with
  | nil =>
    obtain rfl : news = [] := List.length_eq_zero_iff.1 hl.symm
    rfl
  | cons o os ih =>
    match news, hl with
    | n :: ns, hl =>
      obtain ⟨ho, hn'⟩ := List.nodup_cons.1 hn
      have step : rename o n (pre ++ o :: os) = (pre ++ [n]) ++ os := by
        unfold rename
        rw [List.map_append, List.map_cons, if_pos rfl]
        have e1 : pre.map (fun x => if x = o then n else x) = pre := by
          conv_rhs => rw [← List.map_id pre]
          apply List.map_congr_left
          intro x hx
          rw [if_neg]
          · rfl
          · rintro rfl
            exact hp x hx (by simp)
        have e2 : os.map (fun x => if x = o then n else x) = os := by
          conv_rhs => rw [← List.map_id os]
          apply List.map_congr_left
          intro x hx
          rw [if_neg]
          · rfl
          · rintro rfl
            exact ho hx
        rw [e1, e2, List.append_assoc]
        rfl
      have : renameAll (o :: os) (n :: ns) (pre ++ o :: os) = renameAll os ns (rename o n (pre ++ o :: os)) := rfl
      rw [this, step, ih (by simpa using hl) ?_ hn' ?_]
      · simp
      · intro x hx
        rcases List.mem_append.1 hx with h | h
        · exact fun h' => hp x h (by simp [h'])
        · obtain rfl := List.mem_singleton.1 h
          intro h'
          obtain ⟨j, hj, e⟩ := List.getElem_of_mem h'
          exact hc 0 (j + 1) (by omega) (by simp) (by simp; omega) (by simp [e])
      · intro i j hij hi hj
        have := hc (i + 1) (j + 1) (by omega) (by simp; omega) (by simp; omega)
        simpa using this

/-! ## C108 -/

/-- **C108**: the names of the exported model are the given ones, in their order, provided that no given name is the old
name of a later input. -/
theorem C108_names {olds news : List String} (hl : olds.length = news.length) (hn : olds.Nodup)
    (hc : ∀ i j, i < j → ∀ (hi : i < news.length) (hj : j < olds.length), news[i] ≠ olds[j]) :
    renamed olds (some news) = .ok news := by
  unfold renamed
  dsimp only
  rw [pyAssert_true hl]
  have := renamed_fold (pre := []) hl (by simp) hn hc
  rw [List.nil_append, List.nil_append] at this
  rw [this]
  rfl

/-- names that may be given: as many as there are, and none is the old name of a later one -/
structure Names (olds news : List String) : Prop where
  number : olds.length = news.length
  distinct : olds.Nodup
  fresh : ∀ i j, i < j → ∀ (hi : i < news.length) (hj : j < olds.length), news[i] ≠ olds[j]

/-- **C108**: with or without validation, and whether or not it passes, the stored model is the converted one with the
given names. -/
theorem C108_stored {fn : List NdArr → JaxOut} {c : OnnxModel} {args : List NdArr} {ins outs : List String} {v : Bool}
    (hi : Names c.inputs ins) (ho : Names c.outputs outs) :
    (to_onnx fn c args (some ins) (some outs) v).2 = ⟨ins, outs, c.compute⟩ ∧
      (to_onnx fn c args (some ins) none v).2 = ⟨ins, c.outputs, c.compute⟩ ∧
      (to_onnx fn c args none (some outs) v).2 = ⟨c.inputs, outs, c.compute⟩ ∧
      (to_onnx fn c args (some ins) (some outs) false).1 = .ok () := by
  have e1 := C108_names hi.number hi.distinct hi.fresh
  have e2 := C108_names ho.number ho.distinct ho.fresh
  have e3 : renamed c.inputs none = .ok c.inputs := rfl
  have e4 : renamed c.outputs none = .ok c.outputs := rfl
  unfold to_onnx
  rw [e1, e2, e3, e4]
  exact ⟨rfl, rfl, rfl, rfl⟩

/-- **C108**: another number of names raises, and the file holds the model with the old names. -/
theorem C108_number {fn : List NdArr → JaxOut} {c : OnnxModel} {args : List NdArr} {news : List String}
    {out : Option (List String)} {v : Bool} (h : c.inputs.length ≠ news.length) :
    to_onnx fn c args (some news) out v = (.error .assertion, c) := by
  unfold to_onnx renamed
  dsimp only
  rw [pyAssert_false h]
  rfl

theorem feedArgs_zip {ns : List String} {args : List NdArr} (hn : ns.Nodup) (hl : ns.length = args.length) :
    feedArgs (ns.zip args) ns = .ok args := by
  have key : ∀ {ns : List String} {args : List NdArr} (pre : List (String × NdArr)), (∀ n ∈ ns, pre.lookup n = none) →
      ns.Nodup → ns.length = args.length → feedArgs (pre ++ ns.zip args) ns = .ok args := by
    intro ns
    induction ns with
    | nil =>
      intro args pre _ _ hl
      obtain rfl : args = [] := List.length_eq_zero_iff.1 hl.symm
      rfl
    | cons n ns ih =>
      intro args pre hp hn hl
      match args, hl with
      | a :: as, hl =>
        obtain ⟨hn1, hn2⟩ := List.nodup_cons.1 hn
        have look : ∀ (pre q : List (String × NdArr)) (k : String), pre.lookup k = none →
            (pre ++ q).lookup k = q.lookup k := by
          intro pre q k h
          rw [List.lookup_append, h]
          rfl
        have e : pre ++ (n :: ns).zip (a :: as) = (pre ++ [(n, a)]) ++ ns.zip as := by simp
        have h1 : (pre ++ (n :: ns).zip (a :: as)).lookup n = some a := by
          rw [look _ _ _ (hp n (by simp))]
          simp
        unfold feedArgs
        rw [h1, e]
        dsimp only
        rw [ih (pre ++ [(n, a)]) ?_ hn2 (by simpa using hl)]
        · rfl
        · intro k hk
          rw [look _ _ _ (hp k (by simp [hk]))]
          have : (k == n) = false := by
            rw [beq_eq_false_iff_ne]
            rintro rfl
            exact hn1 hk
          simp [List.lookup_cons, this]
  exact key [] (by simp) hn hl

theorem validate_eq {fn : List NdArr → JaxOut} {m : OnnxModel} {args : List NdArr} {names : Option (List String)}
    (hn : m.inputs.Nodup) (hl : m.inputs.length = args.length) :
    validateOnnx fn m args names = (fn args).elements >>= fun os =>
      compareOutputs (os.zip (m.compute args)) >>= fun _ => match names with
        | none => pure ()
        | some names => pyAssert (m.outputs = names) := by
  unfold validateOnnx OnnxModel.session_run
  rw [if_neg (not_not.2 hn), feedArgs_zip hn hl]
  rfl

theorem to_onnx_ok {fn : List NdArr → JaxOut} {c m : OnnxModel} {args : List NdArr}
    {ins names : Option (List String)} (h : to_onnx fn c args ins names true = (.ok (), m)) :
    m.compute = c.compute ∧ validateOnnx fn m args names = .ok () := by
  unfold to_onnx at h
  cases e1 : renamed c.inputs ins with
  | error e => rw [e1] at h; cases h
  | ok i =>
    cases e2 : renamed c.outputs names with
    | error e => rw [e1] at h; dsimp only at h; rw [e2] at h; cases h
    | ok o =>
      rw [e1] at h
      dsimp only at h
      rw [e2] at h
      dsimp only at h
      rw [if_pos rfl] at h
      obtain ⟨h1, h2⟩ := Prod.mk.inj h
      rw [h2] at h1
      exact ⟨by rw [← h2], h1⟩

theorem forall₂_of_zip {l1 l2 : List NdArr} (hs : l2.map NdArr.shape = l1.map NdArr.shape) :
    (∀ x ∈ l1.zip l2, x.1.shape = x.2.shape) ∧
      ((∀ x ∈ l1.zip l2, SameUpTo x.1 x.2) → List.Forall₂ SameUpTo l1 l2) := by
  induction l1 generalizing l2 with
  | nil =>
    obtain rfl : l2 = [] := by simpa using hs
    exact ⟨by simp, fun _ => .nil⟩
  | cons a l1 ih =>
    match l2, hs with
    | b :: l2, hs =>
      rw [List.map_cons, List.map_cons] at hs
      obtain ⟨h1, h2⟩ := List.cons.inj hs
      obtain ⟨i1, i2⟩ := ih h2
      rw [List.zip_cons_cons]
      simp only [List.forall_mem_cons]
      exact ⟨⟨h1.symm, i1⟩, fun h => .cons h.1 (i2 h.2)⟩

/-- **C108**: a validated export of a function that returns a tuple: for its arguments the stored model computes what
the function returns, up to the tolerance, and its outputs have the given names. -/
theorem C108_validated {fn : List NdArr → JaxOut} {c m : OnnxModel} {args outs : List NdArr}
    {ins names : Option (List String)} (h : to_onnx fn c args ins names true = (.ok (), m))
    (hf : fn args = .tuple outs) (hl : m.inputs.length = args.length)
    (hs : (m.compute args).map NdArr.shape = outs.map NdArr.shape) :
    List.Forall₂ SameUpTo outs (m.compute args) ∧ (∀ ns, names = some ns → m.outputs = ns) := by
  obtain ⟨-, h1⟩ := to_onnx_ok h
  have hn : m.inputs.Nodup := by
    by_contra hn
    unfold validateOnnx OnnxModel.session_run at h1
    rw [if_pos hn] at h1
    cases h1
  rw [validate_eq hn hl, hf] at h1
  obtain ⟨s1, s2⟩ := forall₂_of_zip hs
  have h1 : (compareOutputs (outs.zip (m.compute args)) >>= fun _ => match names with
        | none => pure ()
        | some names => pyAssert (m.outputs = names)) = .ok () := h1
  cases e : compareOutputs (outs.zip (m.compute args)) with
  | error er => rw [e] at h1; cases h1
  | ok u =>
    refine ⟨s2 ((compare_ok s1).1 e), ?_⟩
    rintro ns rfl
    rw [e] at h1
    have h1 : pyAssert (m.outputs = ns) = .ok () := h1
    by_contra hne
    rw [pyAssert_false hne] at h1
    cases h1

/-- **C108**: a model that computes what a function with a tuple of outputs returns passes the validation. -/
theorem C108_passes {fn : List NdArr → JaxOut} {c : OnnxModel} {args outs : List NdArr}
    (hf : fn args = .tuple outs) (hn : c.inputs.Nodup) (hl : c.inputs.length = args.length)
    (hc : c.compute args = outs) : to_onnx fn c args none none true = (.ok (), c) := by
  have : validateOnnx fn c args none = .ok () := by
    rw [validate_eq hn hl, hf, hc]
    have s1 := (forall₂_of_zip (l1 := outs) (l2 := outs) rfl).1
    have e : compareOutputs (outs.zip outs) = .ok () := by
      refine (compare_ok s1).2 fun x hx => ?_
      have : x.1 = x.2 := by
        clear s1 hc hf
        induction outs with
        | nil => simp at hx
        | cons o os ih =>
          rw [List.zip_cons_cons] at hx
          rcases List.mem_cons.1 hx with rfl | h
          · rfl
          · exact ih h
      rw [this]
      refine ⟨rfl, fun idx _ => ?_⟩
      rw [sub_self, abs_zero]
      have := abs_nonneg (x.2.val idx)
      have h5 : (0 : ℝ) ≤ 1e-5 := by norm_num
      have := mul_nonneg h5 this
      linarith
    show (compareOutputs (outs.zip outs) >>= fun _ => pure ()) = _
    rw [e]
    rfl
  unfold to_onnx renamed
  dsimp only
  rw [if_pos rfl, this]

/-- numpy's rule, counted from the last dimension, missing dimensions have size 1: the sizes agree or one of them is 1, and
the result has the other size -/
def Broadcasts (s t r : List Nat) : Prop :=
  r.length = max s.length t.length ∧ ∀ i < r.length,
    (s.getD i 1 = t.getD i 1 ∧ r.getD i 1 = s.getD i 1) ∨ (s.getD i 1 = 1 ∧ r.getD i 1 = t.getD i 1) ∨
      (t.getD i 1 = 1 ∧ r.getD i 1 = s.getD i 1)

/-- `bdim` is numpy's rule: it gives the broadcast shape, and an error exactly when there is none. -/
theorem C108_broadcast (s t r : List Nat) : bdim s t = some r ↔ Broadcasts s t r := by
  have ext : ∀ {a b : List Nat}, a.length = b.length → (∀ i < a.length, a.getD i 1 = b.getD i 1) → a = b := by
    intro a b hl h
    refine List.ext_getElem hl fun i h1 h2 => ?_
    have := h i h1
    simpa [List.getD, h1, h2] using this
  induction s generalizing t r with
  | nil =>
    rw [show bdim [] t = some t by cases t <;> rfl]
    constructor
    · rintro ⟨⟩
      exact ⟨by simp, fun i _ => .inr (.inl ⟨by simp, rfl⟩)⟩
    · rintro ⟨hl, h⟩
      rw [ext (a := r) (b := t) (by simpa using hl) fun i hi => ?_]
      rcases h i hi with ⟨h1, h2⟩ | ⟨_, h2⟩ | ⟨h1, h2⟩
      · rw [h2, h1]
      · exact h2
      · rw [h2, h1]; simp
  | cons x s ih =>
    cases t with
    | nil =>
      rw [show bdim (x :: s) [] = some (x :: s) from rfl]
      constructor
      · rintro ⟨⟩
        exact ⟨by simp, fun i _ => .inr (.inr ⟨by simp, rfl⟩)⟩
      · rintro ⟨hl, h⟩
        rw [ext (a := r) (b := x :: s) (by simpa using hl) fun i hi => ?_]
        rcases h i hi with ⟨_, h2⟩ | ⟨h1, h2⟩ | ⟨_, h2⟩
        · exact h2
        · rw [h2, h1]; simp
        · exact h2
    | cons y t =>
      have tail : ∀ {z : Nat} {r' : List Nat}, Broadcasts (x :: s) (y :: t) (z :: r') ↔
          ((x = y ∧ z = x) ∨ (x = 1 ∧ z = y) ∨ (y = 1 ∧ z = x)) ∧ Broadcasts s t r' := by
        intro z r'
        constructor
        · rintro ⟨hl, h⟩
          refine ⟨by simpa using h 0 (by simp), ?_, fun i hi => ?_⟩
          · simp only [List.length_cons] at hl
            omega
          · simpa using h (i + 1) (by simpa using hi)
        · rintro ⟨h0, hl, h⟩
          refine ⟨by simp only [List.length_cons]; omega, fun i hi => ?_⟩
          cases i with
          | zero => simpa using h0
          | succ i => simpa using h i (by simpa using hi)
      cases r with
      | nil =>
        constructor
        · intro h
          unfold bdim at h
          split_ifs at h <;> simp at h
        · rintro ⟨hl, -⟩
          simp at hl
      | cons z r' =>
        refine Iff.trans ?_ tail.symm
        rw [show Broadcasts s t r' ↔ _ from (ih t r').symm]
        rw [show bdim (x :: s) (y :: t) = if x = y ∨ y = 1 then (bdim s t).map (x :: ·)
          else if x = 1 then (bdim s t).map (y :: ·) else none from rfl]
        split_ifs with h1 h2
        · have e : ((x = y ∧ z = x) ∨ (x = 1 ∧ z = y) ∨ (y = 1 ∧ z = x)) ↔ x = z := by omega
          rw [e]
          cases bdim s t <;> simp
        · have e : ((x = y ∧ z = x) ∨ (x = 1 ∧ z = y) ∨ (y = 1 ∧ z = x)) ↔ y = z := by omega
          rw [e]
          cases bdim s t <;> simp
        · simp only [reduceCtorEq, false_iff, not_and]
          intro h
          omega

example : Broadcasts [3, 1] [1, 2, 4] [3, 2, 4] :=
  (C108_broadcast _ _ _).1 rfl

theorem bdim_append (s t : List Nat) : bdim s (s ++ t) = some (s ++ t) := by
  induction s with
  | nil => cases t <;> rfl
  | cons x s ih => simp [bdim, ih]

/-- the validation of a function that returns an array with at least one row compares its first row to all rows -/
theorem C108_single_rows {fn : List NdArr → JaxOut} {c : OnnxModel} {args : List NdArr} {n : Nat} {s : List Nat}
    {v w : List Nat → ℝ} (hf : fn args = .array ⟨(n + 1) :: s, v⟩) (hn : c.inputs.Nodup)
    (hl : c.inputs.length = args.length) (hc : c.compute args = [⟨(n + 1) :: s, w⟩]) :
    validateOnnx fn c args none = .ok () ↔ ∀ i idx, i < n + 1 → List.Forall₂ (· < ·) idx s →
      |v (0 :: idx) - w (i :: idx)| ≤ 1e-5 + 1e-5 * |w (i :: idx)| := by
  have hlen : ∀ {i s : List Nat}, List.Forall₂ (· < ·) i s → i.length = s.length := by
    intro i s hh
    induction hh with
    | nil => rfl
    | cons _ _ ih => rw [List.length_cons, List.length_cons, ih]
  rw [validate_eq hn hl, hf, hc]
  have e : (JaxOut.array ⟨(n + 1) :: s, v⟩).elements = .ok ((List.range (n + 1)).map fun i =>
      (⟨s, fun idx => v (i :: idx)⟩ : NdArr)) := rfl
  rw [e, ok_bind, List.range_succ_eq_map, List.map_cons, List.zip_cons_cons, List.zip_nil_right]
  unfold compareOutputs compareOutputs allclose
  dsimp only
  rw [List.reverse_cons, bdim_append]
  dsimp only
  have hrow : ∀ i idx, List.Forall₂ (· < ·) idx s →
      (⟨s, fun idx => v (0 :: idx)⟩ : NdArr).bget (i :: idx) = v (0 :: idx) := by
    intro i idx hi
    have := bget_self (a := ⟨s, fun idx => v (0 :: idx)⟩) hi
    refine Eq.trans ?_ this
    unfold NdArr.bget
    dsimp only
    rw [List.length_cons, hlen hi, Nat.sub_self, Nat.add_sub_cancel_left]
    rfl
  have hall : Close ⟨s, fun idx => v (0 :: idx)⟩ ⟨(n + 1) :: s, w⟩ (indices (s.reverse ++ [n + 1]).reverse) ↔
      ∀ i idx, i < n + 1 → List.Forall₂ (· < ·) idx s →
        |v (0 :: idx) - w (i :: idx)| ≤ 1e-5 + 1e-5 * |w (i :: idx)| := by
    have er : (s.reverse ++ [n + 1]).reverse = (n + 1) :: s := by simp
    rw [er]
    constructor
    · intro h i idx hi hx
      have := h (i :: idx) (mem_indices.2 (.cons hi hx))
      rwa [hrow i idx hx, bget_self (a := ⟨(n + 1) :: s, w⟩) (.cons hi hx)] at this
    · intro h idx hi
      have hi := mem_indices.1 hi
      cases hi with
      | @cons i _ idx _ h1 h2 =>
        rw [hrow i idx h2, bget_self (a := ⟨(n + 1) :: s, w⟩) (.cons h1 h2)]
        exact h i idx h1 h2
  rw [← hall]
  by_cases hcl : Close ⟨s, fun idx => v (0 :: idx)⟩ ⟨(n + 1) :: s, w⟩ (indices (s.reverse ++ [n + 1]).reverse)
  · rw [@decide_eq_true _ (Classical.propDecidable _) hcl]
    exact iff_of_true rfl hcl
  · rw [@decide_eq_false _ (Classical.propDecidable _) hcl]
    refine iff_of_false ?_ hcl
    intro h
    cases h

/-! ## What does not hold -/

/-- a function of no arguments that returns the rows (0) and (1) -/
def twoRows : List NdArr → JaxOut := fun _ => .array ⟨[2, 1], fun idx => idx.headD 0⟩
/-- its exact export -/
def exactExport : OnnxModel := ⟨[], ["y"], fun _ => [⟨[2, 1], fun idx => idx.headD 0⟩]⟩
/-- a wrong export, that returns zeros -/
def zeroExport : OnnxModel := ⟨[], ["y"], fun _ => [⟨[2, 1], fun _ => 0⟩]⟩

/-- **C108 fails** for a function that returns one array: the validation rejects the exact export and accepts a wrong
one, because it compares the first row of the array to all rows of the output. -/
theorem C108_single_fails : (to_onnx twoRows exactExport [] none none true).1 ≠ .ok () ∧
    (to_onnx twoRows zeroExport [] none none true).1 = .ok () := by
  constructor
  · show validateOnnx twoRows exactExport [] none ≠ .ok ()
    intro h
    have := (C108_single_rows (n := 1) (s := [1]) (v := fun idx => idx.headD 0) (w := fun idx => idx.headD 0)
      rfl (by simp [exactExport]) rfl rfl).1 h 1 [0] (by omega) (.cons (by omega) .nil)
    norm_num at this
  · show validateOnnx twoRows zeroExport [] none = .ok ()
    refine (C108_single_rows (n := 1) (s := [1]) (v := fun idx => idx.headD 0) (w := fun _ => 0)
      rfl (by simp [zeroExport]) rfl rfl).2 fun i idx _ _ => ?_
    norm_num

/-- **C108 fails** for exchanged names: after the renaming both inputs have one name. -/
theorem C108_exchanged_fails : renamed ["a", "b"] (some ["b", "a"]) = .ok ["a", "a"] := by
  decide

/-- **C108 fails** for a model with fewer outputs than the function: only the first ones are compared. -/
theorem C108_fewer_fails {fn : List NdArr → JaxOut} {c : OnnxModel} {args outs : List NdArr}
    (hf : fn args = .tuple outs) (hn : c.inputs.Nodup) (hl : c.inputs.length = args.length)
    (hc : c.compute args = []) : to_onnx fn c args none none true = (.ok (), c) := by
  have : validateOnnx fn c args none = .ok () := by
    rw [validate_eq hn hl, hf, hc]
    show (compareOutputs (outs.zip []) >>= fun _ => pure ()) = _
    rw [List.zip_nil_right]
    rfl
  unfold to_onnx renamed
  dsimp only
  rw [if_pos rfl, this]

/-- **C108 fails** for `save_model_tf`: whatever the values are, outputs of the right shapes are accepted. -/
theorem C108_tf_fails {output_jax output_tf : List NdArr}
    (h : output_tf.map NdArr.shape = output_jax.map NdArr.shape) :
    save_model_tf_validate output_jax output_tf = .ok () := by
  unfold save_model_tf_validate
  have hl : output_jax.length = output_tf.length := by
    have := congrArg List.length h
    simpa using this.symm
  rw [if_neg (not_not.2 hl)]
  have key : ∀ l : List (NdArr × NdArr), (∀ x ∈ l, x.1.shape = x.2.shape) →
      ∃ r, (l.mapM fun x => allclose x.1 x.2) = .ok r := by
    intro l hs
    induction l with
    | nil => exact ⟨[], rfl⟩
    | cons x xs ih =>
      obtain ⟨b, e, -⟩ := allclose_same (hs x (by simp))
      obtain ⟨r, e2⟩ := ih fun y hy => hs y (by simp [hy])
      refine ⟨b :: r, ?_⟩
      rw [List.mapM_cons, e, e2]
      rfl
  obtain ⟨r, e⟩ := key _ (forall₂_of_zip h).1
  rw [e]
  rfl

/-! ## Examples -/

example : renamed ["args_0", "args_1"] (some ["x", "y"]) = .ok ["x", "y"] :=
  C108_names rfl (by decide) (by
    intro i j hij hi hj
    have hj' : j < 2 := hj
    obtain rfl : i = 0 := by omega
    obtain rfl : j = 1 := by omega
    simp)

theorem names_xy : Names ["args_0", "args_1"] ["x", "y"] where
  number := rfl
  distinct := by decide
  fresh i j hij hi hj := by
    have hj' : j < 2 := hj
    obtain rfl : i = 0 := by omega
    obtain rfl : j = 1 := by omega
    simp

example (fn : List NdArr → JaxOut) (f : List NdArr → List NdArr) (args : List NdArr) :
    (to_onnx fn ⟨["args_0", "args_1"], ["args_0", "args_1"], f⟩ args (some ["x", "y"]) (some ["x", "y"]) true).2 =
      ⟨["x", "y"], ["x", "y"], f⟩ := (C108_stored (c := ⟨_, _, f⟩) names_xy names_xy).1

example : to_onnx (fun _ => .tuple [⟨[], fun _ => 3⟩]) ⟨["a"], ["y"], fun _ => [⟨[], fun _ => 3⟩]⟩ [⟨[2], fun _ => 1⟩]
    none none true = (.ok (), ⟨["a"], ["y"], fun _ => [⟨[], fun _ => 3⟩]⟩) :=
  C108_passes (outs := [⟨[], fun _ => 3⟩]) rfl (by simp) rfl rfl

example : List.Forall₂ SameUpTo [⟨[], fun _ => 3⟩] [⟨[], fun _ => 3⟩] :=
  (C108_validated (fn := fun _ => .tuple [⟨[], fun _ => 3⟩]) (args := [⟨[2], fun _ => 1⟩])
    (C108_passes (c := ⟨["a"], ["y"], fun _ => [⟨[], fun _ => 3⟩]⟩) (outs := [⟨[], fun _ => 3⟩]) rfl (by simp) rfl rfl)
    rfl rfl rfl).1

example : save_model_tf_validate [⟨[2], fun _ => 0⟩] [⟨[2], fun _ => 1⟩] = .ok () := C108_tf_fails rfl

end ml
end RingLib
