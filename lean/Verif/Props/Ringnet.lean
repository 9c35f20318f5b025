import Verif.Model.Ringnet
import Mathlib.Algebra.BigOperators.Fin
import Mathlib.Algebra.BigOperators.Group.Finset.Basic
import Mathlib.Logic.Relation
import Mathlib.Tactic.Linarith
import Mathlib.Tactic.FinCases
import Mathlib.Algebra.BigOperators.Group.Finset.Piecewise

/-!
# The RING network respects the graph (C58)
-/

namespace RingLib.ml

variable {X M V Y : Type}

/-! ## Specification -/

/-- `b` is `a` with the rows moved by `σ`. -/
def Relabelled {α : Type} {N : Nat} (σ : Equiv.Perm (Fin N)) (a b : List α) : Prop :=
  a.length = N ∧ b.length = N ∧ ∀ i : Fin N, b[(σ i).val]? = a[i.val]?

/-- `lam'` is the parent array of the same forest after relabelling by `σ`. -/
def ParentsRelabelled {N : Nat} (σ : Equiv.Perm (Fin N)) (lam lam' : List Int) : Prop :=
  lam.length = N ∧ lam'.length = N ∧
  ∀ i : Fin N, (lam[i.val]? = some (-1) ∧ lam'[(σ i).val]? = some (-1)) ∨
    ∃ j : Fin N, lam[i.val]? = some (j.val : Int) ∧ lam'[(σ i).val]? = some ((σ j).val : Int)

/-- Parent and child. -/
def Adj (lam : List Int) (i j : Nat) : Prop :=
  lam[i]? = some (j : Int) ∨ lam[j]? = some (i : Int)

/-- At most `d` edges apart. -/
def Near (lam : List Int) : Nat → Nat → Nat → Prop
  | 0, i, k => i = k
  | d + 1, i, k => Near lam d i k ∨ ∃ j, Near lam d i j ∧ Adj lam j k

/-- In the same connected component. -/
def Connected (lam : List Int) : Nat → Nat → Prop := Relation.ReflTransGen (Adj lam)

/-- The arrays agree on the rows in `P`. -/
def AgreeOn {α : Type} (P : Nat → Prop) (a b : List α) : Prop := ∀ i, P i → a[i]? = b[i]?

/-! ## The step row by row -/

section
variable [AddCommMonoid M]

/-- The messages of all bodies and the empty message, row `p`. -/
theorem jnpGet_sum {N : Nat} (m : List M) (hm : m.length = N) (p : Int) (hp : -1 ≤ p) :
    jnpGet (m ++ [0]) p = ∑ j : Fin N, if p = (j.val : Int) then (m[j.val]?).getD 0 else 0 := by
  unfold jnpGet
  simp only [List.length_append, List.length_cons, List.length_nil, hm]
  by_cases h0 : p = -1
  · subst h0
    have : (-1 + ((N + (0 + 1) : Nat) : Int)).toNat = N := by omega
    rw [if_pos (by norm_num), this]
    rw [show min N (N + (0 + 1) - 1) = N by omega]
    rw [Finset.sum_eq_zero (fun j _ => if_neg (by omega))]
    rw [List.getElem?_append_right (by omega)]
    simp [hm]
  · rw [if_neg (by omega)]
    by_cases hN : p.toNat < N
    · rw [show min p.toNat (N + (0 + 1) - 1) = p.toNat by omega]
      rw [List.getElem?_append_left (by omega)]
      rw [Finset.sum_eq_single (⟨p.toNat, hN⟩ : Fin N)]
      · rw [if_pos (by simp; omega)]
      · intro b _ hb
        rw [if_neg]
        intro h
        exact hb (Fin.ext (by simp [h]))
      · intro h; exact absurd (Finset.mem_univ _) h
    · rw [show min p.toNat (N + (0 + 1) - 1) = N by omega]
      rw [Finset.sum_eq_zero (fun j _ => if_neg (by omega))]
      rw [List.getElem?_append_right (by omega)]
      simp [hm]

/-- The mailbox of a body as a sum over all bodies. -/
theorem accumulate_sum {N : Nat} (lam : List Int) (hl : lam.length = N) (m : List M)
    (hm : m.length = N) (i : Nat) :
    accumulate_message lam m i
      = ∑ j : Fin N, if lam[j.val]? = some (i : Int) then (m[j.val]?).getD 0 else 0 := by
  unfold accumulate_message
  rw [← List.sum_ofFn]
  congr 1
  apply List.ext_getElem
  · simp [hl, hm]
  · intro k h1 h2
    have hk : k < N := by simpa using h2
    simp [List.getElem?_eq_getElem (show k < lam.length by omega),
      List.getElem?_eq_getElem (show k < m.length by omega)]

/-- What body `i` computes in one step. -/
def nodeOut (w : RingWeights X M V Y) (lam : List Int) (N : Nat) (s : List (List V)) (i : Nat)
    (x : X) (p : Int) (si : List V) : V × List V :=
  inner_cell w (w.concat x
    (∑ j : Fin N, if p = (j.val : Int) then ((s[j.val]?).map (message w)).getD 0 else 0)
    (∑ j : Fin N, if lam[j.val]? = some (i : Int) then ((s[j.val]?).map (message w)).getD 0 else 0))
    si

/-- One step, row by row. -/
theorem step_row (w : RingWeights X M V Y) {N : Nat} (lam : List Int) (hl : lam.length = N)
    (hp : ∀ p ∈ lam, -1 ≤ p) (inputs : List X) (hx : inputs.length = N) (s : List (List V))
    (hs : s.length = N) (i : Nat) (hi : i < N) :
    ((_rnno_cell_apply_fn w lam inputs s).1[i]?
      = some (w.output_transform (w.send_output
          (nodeOut w lam N s i (inputs[i]'(hx ▸ hi)) (lam[i]'(hl ▸ hi)) (s[i]'(hs ▸ hi))).1))) ∧
    ((_rnno_cell_apply_fn w lam inputs s).2[i]?
      = some (nodeOut w lam N s i (inputs[i]'(hx ▸ hi)) (lam[i]'(hl ▸ hi)) (s[i]'(hs ▸ hi))).2) := by
  have hm : (s.map (message w)).length = N := by simp [hs]
  have e1 := jnpGet_sum (s.map (message w)) hm (lam[i]'(hl ▸ hi)) (hp _ (List.getElem_mem _))
  have e2 := accumulate_sum lam hl (s.map (message w)) hm i
  have key : (List.zipWith (inner_cell w)
      (List.zipWith (fun xp mb => w.concat xp.1 (jnpGet (s.map (message w) ++ [0]) xp.2) mb)
        (List.zip inputs lam)
        ((List.range lam.length).map
          (accumulate_message lam (s.map (message w) ++ [0]).dropLast))) s)[i]?
      = some (nodeOut w lam N s i (inputs[i]'(hx ▸ hi)) (lam[i]'(hl ▸ hi)) (s[i]'(hs ▸ hi))) := by
    rw [List.getElem?_eq_getElem (by simp [hx, hl, hs, hi])]
    simp only [List.getElem_zipWith, List.getElem_zip, List.getElem_map, List.getElem_range,
      List.dropLast_concat]
    rw [e1, e2]
    simp only [List.getElem?_map]
    rfl
  constructor
  · show (List.map _ _)[i]? = _
    rw [List.getElem?_map, key]; rfl
  · show (List.map _ _)[i]? = _
    rw [List.getElem?_map, key]; rfl

theorem step_length (w : RingWeights X M V Y) {N : Nat} (lam : List Int) (hl : lam.length = N)
    (inputs : List X) (hx : inputs.length = N) (s : List (List V)) (hs : s.length = N) :
    (_rnno_cell_apply_fn w lam inputs s).1.length = N ∧
    (_rnno_cell_apply_fn w lam inputs s).2.length = N := by
  unfold _rnno_cell_apply_fn
  simp [hl, hx, hs]

theorem unroll_length (w : RingWeights X M V Y) {N : Nat} (lam : List Int) (hl : lam.length = N)
    (xs : List (List X)) (hx : ∀ x ∈ xs, x.length = N) (s : List (List V)) (hs : s.length = N) :
    (unroll w lam xs s).1.length = xs.length ∧ (∀ y ∈ (unroll w lam xs s).1, y.length = N) ∧
    (unroll w lam xs s).2.length = N := by
  induction xs generalizing s with
  | nil => exact ⟨rfl, by simp [unroll], hs⟩
  | cons x xs ih =>
    have h1 := step_length w lam hl x (hx x (by simp)) s hs
    have h2 := ih (fun y hy => hx y (by simp [hy])) _ h1.2
    refine ⟨?_, ?_, h2.2.2⟩
    · simp [unroll, h2.1]
    · intro y hy
      simp only [unroll, List.mem_cons] at hy
      rcases hy with rfl | hy
      · exact h1.1
      · exact h2.2.1 y hy

/-! ## Relabelling -/

theorem ParentsRelabelled.ge {N : Nat} {σ : Equiv.Perm (Fin N)} {lam lam' : List Int}
    (h : ParentsRelabelled σ lam lam') : (∀ p ∈ lam, -1 ≤ p) ∧ (∀ p ∈ lam', -1 ≤ p) := by
  obtain ⟨h1, h2, h3⟩ := h
  constructor
  · intro p hp
    obtain ⟨i, hi, rfl⟩ := List.getElem_of_mem hp
    have h := h3 ⟨i, by omega⟩
    simp only [List.getElem?_eq_getElem hi, Option.some.injEq] at h
    rcases h with h | ⟨j, h, _⟩ <;> omega
  · intro p hp
    obtain ⟨i, hi, rfl⟩ := List.getElem_of_mem hp
    have h := h3 (σ.symm ⟨i, by omega⟩)
    simp only [Equiv.apply_symm_apply, List.getElem?_eq_getElem hi, Option.some.injEq] at h
    rcases h with h | ⟨j, _, h⟩ <;> omega

theorem nodeOut_relabel (w : RingWeights X M V Y) {N : Nat} {σ : Equiv.Perm (Fin N)}
    {lam lam' : List Int} (hlam : ParentsRelabelled σ lam lam') {s s' : List (List V)}
    (hs : Relabelled σ s s') (i : Fin N) (x : X) (si : List V) (p p' : Int)
    (hp : lam[i.val]? = some p) (hp' : lam'[(σ i).val]? = some p') :
    nodeOut w lam' N s' (σ i).val x p' si = nodeOut w lam N s i.val x p si := by
  unfold nodeOut
  have e1 : (∑ j : Fin N, if p' = (j.val : Int) then ((s'[j.val]?).map (message w)).getD 0 else 0)
      = ∑ j : Fin N, if p = (j.val : Int) then ((s[j.val]?).map (message w)).getD 0 else 0 := by
    rw [← Equiv.sum_comp σ]
    refine Finset.sum_congr rfl fun j _ => ?_
    rw [hs.2.2 j]
    have : (p' = ((σ j).val : Int)) ↔ p = (j.val : Int) := by
      rcases hlam.2.2 i with ⟨a, b⟩ | ⟨k, a, b⟩
      · rw [hp] at a; rw [hp'] at b
        simp only [Option.some.injEq] at a b
        constructor <;> intro h <;> omega
      · rw [hp] at a; rw [hp'] at b
        simp only [Option.some.injEq] at a b
        rw [a, b]
        constructor
        · intro h
          have : σ k = σ j := Fin.ext (by exact_mod_cast h)
          rw [σ.injective this]
        · intro h
          have : k = j := Fin.ext (by exact_mod_cast h)
          rw [this]
    by_cases h : p = (j.val : Int)
    · rw [if_pos h, if_pos (this.2 h)]
    · rw [if_neg h, if_neg (fun h' => h (this.1 h'))]
  have e2 : (∑ j : Fin N, if lam'[j.val]? = some ((σ i).val : Int) then
        ((s'[j.val]?).map (message w)).getD 0 else 0)
      = ∑ j : Fin N, if lam[j.val]? = some (i.val : Int) then
        ((s[j.val]?).map (message w)).getD 0 else 0 := by
    rw [← Equiv.sum_comp σ]
    refine Finset.sum_congr rfl fun j _ => ?_
    rw [hs.2.2 j]
    have : (lam'[(σ j).val]? = some ((σ i).val : Int)) ↔ lam[j.val]? = some (i.val : Int) := by
      rcases hlam.2.2 j with ⟨a, b⟩ | ⟨k, a, b⟩
      · rw [a, b]
        simp only [Option.some.injEq]
        constructor <;> intro h <;> omega
      · rw [a, b]
        simp only [Option.some.injEq]
        constructor
        · intro h
          have : σ k = σ i := Fin.ext (by exact_mod_cast h)
          rw [σ.injective this]
        · intro h
          have : k = i := Fin.ext (by exact_mod_cast h)
          rw [this]
    by_cases h : lam[j.val]? = some (i.val : Int)
    · rw [if_pos h, if_pos (this.2 h)]
    · rw [if_neg h, if_neg (fun h' => h (this.1 h'))]
  rw [e1, e2]

theorem step_relabel (w : RingWeights X M V Y) {N : Nat} {σ : Equiv.Perm (Fin N)}
    {lam lam' : List Int} (hlam : ParentsRelabelled σ lam lam') {x x' : List X}
    (hx : Relabelled σ x x') {s s' : List (List V)} (hs : Relabelled σ s s') :
    Relabelled σ (_rnno_cell_apply_fn w lam x s).1 (_rnno_cell_apply_fn w lam' x' s').1 ∧
    Relabelled σ (_rnno_cell_apply_fn w lam x s).2 (_rnno_cell_apply_fn w lam' x' s').2 := by
  have l := step_length w lam hlam.1 x hx.1 s hs.1
  have l' := step_length w lam' hlam.2.1 x' hx.2.1 s' hs.2.1
  have key : ∀ i : Fin N,
      (_rnno_cell_apply_fn w lam' x' s').1[(σ i).val]? = (_rnno_cell_apply_fn w lam x s).1[i.val]? ∧
      (_rnno_cell_apply_fn w lam' x' s').2[(σ i).val]? = (_rnno_cell_apply_fn w lam x s).2[i.val]? := by
    intro i
    have a := step_row w lam hlam.1 hlam.ge.1 x hx.1 s hs.1 i.val i.isLt
    have b := step_row w lam' hlam.2.1 hlam.ge.2 x' hx.2.1 s' hs.2.1 (σ i).val (σ i).isLt
    have ex := hx.2.2 i
    rw [List.getElem?_eq_getElem (by rw [hx.2.1]; exact (σ i).isLt),
      List.getElem?_eq_getElem (by rw [hx.1]; exact i.isLt)] at ex
    have es := hs.2.2 i
    rw [List.getElem?_eq_getElem (by rw [hs.2.1]; exact (σ i).isLt),
      List.getElem?_eq_getElem (by rw [hs.1]; exact i.isLt)] at es
    rw [a.1, a.2, b.1, b.2, Option.some.inj ex, Option.some.inj es]
    rw [nodeOut_relabel w hlam hs i _ _ _ _
      (List.getElem?_eq_getElem (by rw [hlam.1]; exact i.isLt))
      (List.getElem?_eq_getElem (by rw [hlam.2.1]; exact (σ i).isLt))]
    exact ⟨rfl, rfl⟩
  exact ⟨⟨l.1, l'.1, fun i => (key i).1⟩, ⟨l.2, l'.2, fun i => (key i).2⟩⟩

/-- **C58.** Relabelling the bodies, and the parent array accordingly, relabels the outputs at all
times and the final state. -/
theorem C58_relabel (w : RingWeights X M V Y) {N : Nat} (σ : Equiv.Perm (Fin N))
    (lam lam' : List Int) (hlam : ParentsRelabelled σ lam lam') (xs xs' : List (List X))
    (hx : List.Forall₂ (Relabelled σ) xs xs') (s s' : List (List V)) (hs : Relabelled σ s s') :
    List.Forall₂ (Relabelled σ) (unroll w lam xs s).1 (unroll w lam' xs' s').1 ∧
    Relabelled σ (unroll w lam xs s).2 (unroll w lam' xs' s').2 := by
  induction hx generalizing s s' with
  | nil => exact ⟨List.Forall₂.nil, hs⟩
  | cons h _ ih =>
    have h1 := step_relabel w hlam h hs
    have h2 := ih _ _ h1.2
    exact ⟨List.Forall₂.cons h1.1 h2.1, h2.2⟩

/-! ## Locality -/

theorem nodeOut_local (w : RingWeights X M V Y) {N : Nat} (lam : List Int) (s s' : List (List V))
    (i : Nat) (x : X) (p : Int) (si : List V) (hp : lam[i]? = some p)
    (h : ∀ j, Adj lam i j → s[j]? = s'[j]?) :
    nodeOut w lam N s i x p si = nodeOut w lam N s' i x p si := by
  unfold nodeOut
  have e1 : (∑ j : Fin N, if p = (j.val : Int) then ((s[j.val]?).map (message w)).getD 0 else 0)
      = ∑ j : Fin N, if p = (j.val : Int) then ((s'[j.val]?).map (message w)).getD 0 else 0 := by
    refine Finset.sum_congr rfl fun j _ => ?_
    by_cases hj : p = (j.val : Int)
    · rw [h j.val (Or.inl (by rw [hp, hj]))]
    · rw [if_neg hj, if_neg hj]
  have e2 : (∑ j : Fin N, if lam[j.val]? = some (i : Int) then
        ((s[j.val]?).map (message w)).getD 0 else 0)
      = ∑ j : Fin N, if lam[j.val]? = some (i : Int) then
        ((s'[j.val]?).map (message w)).getD 0 else 0 := by
    refine Finset.sum_congr rfl fun j _ => ?_
    by_cases hj : lam[j.val]? = some (i : Int)
    · rw [h j.val (Or.inr hj)]
    · rw [if_neg hj, if_neg hj]
  rw [e1, e2]

/-- **C58.** In one step the output and the next state of a body depend only on its own features and
on the states of itself, its parent and its children. -/
theorem C58_step (w : RingWeights X M V Y) {N : Nat} (lam : List Int) (hl : lam.length = N)
    (hp : ∀ p ∈ lam, -1 ≤ p) (x x' : List X) (hx : x.length = N) (hx' : x'.length = N)
    (s s' : List (List V)) (hs : s.length = N) (hs' : s'.length = N) (i : Nat)
    (ex : x[i]? = x'[i]?) (es : s[i]? = s'[i]?)
    (h : ∀ j, Adj lam i j → s[j]? = s'[j]?) :
    (_rnno_cell_apply_fn w lam x s).1[i]? = (_rnno_cell_apply_fn w lam x' s').1[i]? ∧
    (_rnno_cell_apply_fn w lam x s).2[i]? = (_rnno_cell_apply_fn w lam x' s').2[i]? := by
  by_cases hi : i < N
  · have a := step_row w lam hl hp x hx s hs i hi
    have b := step_row w lam hl hp x' hx' s' hs' i hi
    rw [List.getElem?_eq_getElem (by omega), List.getElem?_eq_getElem (by omega)] at ex
    rw [List.getElem?_eq_getElem (by omega), List.getElem?_eq_getElem (by omega)] at es
    rw [a.1, a.2, b.1, b.2, Option.some.inj ex, Option.some.inj es]
    rw [nodeOut_local w lam s s' i _ _ _ (List.getElem?_eq_getElem _) h]
    exact ⟨rfl, rfl⟩
  · have a := step_length w lam hl x hx s hs
    have b := step_length w lam hl x' hx' s' hs'
    rw [List.getElem?_eq_none (by omega), List.getElem?_eq_none (by omega),
      List.getElem?_eq_none (by omega), List.getElem?_eq_none (by omega)]
    exact ⟨rfl, rfl⟩

theorem Near.succ {lam : List Int} {d i j : Nat} (h : Near lam d i j) : Near lam (d + 1) i j :=
  Or.inl h

theorem Near.connected {lam : List Int} {d i j : Nat} (h : Near lam d i j) : Connected lam i j := by
  induction d generalizing j with
  | zero => obtain rfl := h; exact Relation.ReflTransGen.refl
  | succ d ih =>
    rcases h with h | ⟨k, h, a⟩
    · exact ih h
    · exact Relation.ReflTransGen.tail (ih h) a

/-- **C58.** The output of body `i` at time `t` depends only on the features at times `u ≤ t` of
bodies at most `t - u` edges away and on the initial states of bodies at most `t + 1` edges away:
messages travel one edge per time step, and nothing travels back in time. -/
theorem C58_cone (w : RingWeights X M V Y) {N : Nat} (lam : List Int) (hl : lam.length = N)
    (hp : ∀ p ∈ lam, -1 ≤ p) (xs xs' : List (List X)) (hx : ∀ x ∈ xs, x.length = N)
    (hx' : ∀ x ∈ xs', x.length = N) (s s' : List (List V)) (hs : s.length = N)
    (hs' : s'.length = N) (i t : Nat) (ht : t < xs.length) (ht' : t < xs'.length)
    (ex : ∀ u ≤ t, ∀ x x', xs[u]? = some x → xs'[u]? = some x' →
      AgreeOn (Near lam (t - u) i) x x')
    (es : AgreeOn (Near lam (t + 1) i) s s') :
    ((unroll w lam xs s).1[t]?.bind fun y : List Y => y[i]?)
      = ((unroll w lam xs' s').1[t]?.bind fun y : List Y => y[i]?) := by
  induction t generalizing xs xs' s s' with
  | zero =>
    match xs, xs', ht, ht' with
    | x :: xs, x' :: xs', _, _ =>
      have := C58_step w lam hl hp x x' (hx x (by simp)) (hx' x' (by simp)) s s' hs hs' i
        (ex 0 (le_refl _) x x' rfl rfl i rfl) (es i (Or.inl rfl))
        (fun j hj => es j (Or.inr ⟨i, rfl, hj⟩))
      simpa [unroll] using this.1
  | succ t ih =>
    match xs, xs', ht, ht' with
    | x :: xs, x' :: xs', ht, ht' =>
      have l := step_length w lam hl x (hx x (by simp)) s hs
      have l' := step_length w lam hl x' (hx' x' (by simp)) s' hs'
      have := ih xs xs' (fun y hy => hx y (by simp [hy])) (fun y hy => hx' y (by simp [hy]))
        _ _ l.2 l'.2 (by simpa using ht) (by simpa using ht')
        (fun u hu y y' hy hy' => by
          have := ex (u + 1) (by omega) y y' (by simpa using hy) (by simpa using hy')
          rwa [Nat.add_sub_add_right] at this)
        (fun j hj => (C58_step w lam hl hp x x' (hx x (by simp)) (hx' x' (by simp)) s s' hs hs' j
          (ex 0 (by omega) x x' rfl rfl j hj) (es j hj.succ)
          (fun k hk => es k (Or.inr ⟨j, hj, hk⟩))).2)
      simpa [unroll] using this

/-- **C58.** The output of a body at time `t` depends only on the features up to `t`, and on the
initial states, of the bodies in its own connected component. -/
theorem C58_component (w : RingWeights X M V Y) {N : Nat} (lam : List Int) (hl : lam.length = N)
    (hp : ∀ p ∈ lam, -1 ≤ p) (xs xs' : List (List X)) (hx : ∀ x ∈ xs, x.length = N)
    (hx' : ∀ x ∈ xs', x.length = N) (s s' : List (List V)) (hs : s.length = N)
    (hs' : s'.length = N) (i t : Nat) (ht : t < xs.length) (ht' : t < xs'.length)
    (ex : ∀ u ≤ t, ∀ x x', xs[u]? = some x → xs'[u]? = some x' → AgreeOn (Connected lam i) x x')
    (es : AgreeOn (Connected lam i) s s') :
    ((unroll w lam xs s).1[t]?.bind fun y : List Y => y[i]?)
      = ((unroll w lam xs' s').1[t]?.bind fun y : List Y => y[i]?) :=
  C58_cone w lam hl hp xs xs' hx hx' s s' hs hs' i t ht ht'
    (fun u hu x x' h h' j hj => ex u hu x x' h h' j hj.connected) (fun j hj => es j hj.connected)

/-! ## Chunks -/

/-- **C58.** Feeding a sequence in two chunks while carrying the state gives the outputs and the
final state of feeding it at once. -/
theorem C58_two_chunks (w : RingWeights X M V Y) (lam : List Int) (xs ys : List (List X))
    (s : List (List V)) :
    unroll w lam (xs ++ ys) s
      = ((unroll w lam xs s).1 ++ (unroll w lam ys (unroll w lam xs s).2).1,
          (unroll w lam ys (unroll w lam xs s).2).2) := by
  induction xs generalizing s with
  | nil => rfl
  | cons x xs ih =>
    simp only [List.cons_append, unroll]
    rw [ih]

/-- Feeding the chunks one after the other, carrying the state. -/
def feedChunks (w : RingWeights X M V Y) (lam : List Int) :
    List (List (List X)) → List (List V) → List (List Y) × List (List V)
  | [], s => ([], s)
  | c :: cs, s =>
    let r := unroll w lam c s
    let rest := feedChunks w lam cs r.2
    (r.1 ++ rest.1, rest.2)

/-- **C58.** For every way of cutting a sequence into chunks. -/
theorem C58_chunks (w : RingWeights X M V Y) (lam : List Int) (chunks : List (List (List X)))
    (s : List (List V)) : feedChunks w lam chunks s = unroll w lam chunks.flatten s := by
  induction chunks generalizing s with
  | nil => rfl
  | cons c cs ih =>
    rw [List.flatten_cons, C58_two_chunks]
    simp only [feedChunks]
    rw [ih]

/-- **C58.** One output row per time and body. -/
theorem C58_shape (w : RingWeights X M V Y) {N : Nat} (lam : List Int) (hl : lam.length = N)
    (xs : List (List X)) (hx : ∀ x ∈ xs, x.length = N) (s : List (List V)) (hs : s.length = N) :
    (unroll w lam xs s).1.length = xs.length ∧ (∀ y ∈ (unroll w lam xs s).1, y.length = N) ∧
    (unroll w lam xs s).2.length = N :=
  unroll_length w lam hl xs hx s hs

/-- **C58.** What a body receives: its own features, the message of its parent (the zero message for
a root) and the sum of the messages of its children, all computed from the previous states. -/
theorem C58_messages (w : RingWeights X M V Y) {N : Nat} (lam : List Int) (hl : lam.length = N)
    (hp : ∀ p ∈ lam, -1 ≤ p ∧ p < N) (inputs : List X) (hx : inputs.length = N)
    (s : List (List V)) (hs : s.length = N) (i : Nat) (hi : i < N) :
    ∃ (parent children : M) (x : X) (si : List V),
      inputs[i]? = some x ∧ s[i]? = some si ∧
      (lam[i]? = some (-1) → parent = 0) ∧
      (∀ (j : Nat) (sj : List V), lam[i]? = some (j : Int) → s[j]? = some sj →
        parent = message w sj) ∧
      children = ∑ j : Fin N with lam[j.val]? = some (i : Int), message w (s[j.val]'(hs ▸ j.isLt)) ∧
      (_rnno_cell_apply_fn w lam inputs s).1[i]?
        = some (w.output_transform (w.send_output
            (inner_cell w (w.concat x parent children) si).1)) ∧
      (_rnno_cell_apply_fn w lam inputs s).2[i]?
        = some (inner_cell w (w.concat x parent children) si).2 := by
  have key := step_row w lam hl (fun p h => (hp p h).1) inputs hx s hs i hi
  refine ⟨_, _, inputs[i]'(hx ▸ hi), s[i]'(hs ▸ hi), List.getElem?_eq_getElem _,
    List.getElem?_eq_getElem _, ?_, ?_, ?_, key.1, key.2⟩
  · intro h
    rw [List.getElem?_eq_getElem (by omega)] at h
    rw [Option.some.inj h]
    exact Finset.sum_eq_zero fun j _ => if_neg (by omega)
  · intro j sj h hj
    rw [List.getElem?_eq_getElem (by omega)] at h
    rw [Option.some.inj h]
    have hjN : j < N := by rw [← hs]; exact (List.getElem?_eq_some_iff.1 hj).1
    rw [Finset.sum_eq_single (⟨j, hjN⟩ : Fin N)]
    · simp [hj]
    · intro b _ hb
      rw [if_neg]
      intro e
      exact hb (Fin.ext (by simp only; omega))
    · intro e; exact absurd (Finset.mem_univ _) e
  · rw [Finset.sum_filter]
    refine Finset.sum_congr rfl fun j _ => ?_
    rw [List.getElem?_eq_getElem (show j.val < s.length by rw [hs]; exact j.isLt)]
    rfl

/-- **C58.** The message of a body is computed from the state of its last cell. -/
theorem C58_message (w : RingWeights X M V Y) (s : List V) (v : V) :
    message w (s ++ [v]) = w.send_msg (w.hidden v) := by
  simp [message]

theorem stackedLoop_eq (w : RingWeights X M V Y) (cs : List (V → V → V × V)) (k : Nat) (x : V)
    (ss : List V) (hl : ss.length = cs.length) :
    ∃ o : Nat → V, o 0 = x ∧ (stackedLoop w k cs x ss).1 = o cs.length ∧
      (stackedLoop w k cs x ss).2.length = cs.length ∧
      ∀ (i : Nat) (c : V → V → V × V) (s : V), cs[i]? = some c → ss[i]? = some s →
        o (i + 1) = w.layernorm (k + i) (c (o i) s).1 ∧
        (stackedLoop w k cs x ss).2[i]? = some (c (o i) s).2 := by
  induction cs generalizing k x ss with
  | nil => exact ⟨fun _ => x, rfl, by simp [stackedLoop], by simp [stackedLoop], by simp⟩
  | cons c cs ih =>
    match ss, hl with
    | s :: ss, hl =>
      obtain ⟨o, h0, h1, h2, h3⟩ := ih (k + 1) (w.layernorm k (c x s).1) ss
        (by simpa using hl)
      refine ⟨fun n => if n = 0 then x else o (n - 1), rfl, ?_, ?_, ?_⟩
      · simpa [stackedLoop] using h1
      · simpa [stackedLoop] using h2
      · intro i c' s' hc hs
        match i with
        | 0 =>
          simp only [List.getElem?_cons_zero, Option.some.injEq] at hc hs
          subst hc hs
          simp [stackedLoop, h0]
        | i + 1 =>
          have := h3 i c' s' (by simpa using hc) (by simpa using hs)
          rw [show k + 1 + i = k + (i + 1) by omega] at this
          simpa [stackedLoop] using this

/-- **C58.** The cells are stacked: the first gets the input of the body, every later one the
normalised output of the one before, every one its own state; the output is that of the last. -/
theorem C58_cells (w : RingWeights X M V Y) (x : V) (s : List V) (hs : s.length = w.cells.length) :
    ∃ o : Nat → V, o 0 = x ∧ (inner_cell w x s).1 = o w.cells.length ∧
      (inner_cell w x s).2.length = w.cells.length ∧
      ∀ (i : Nat) (c : V → V → V × V) (si : V), w.cells[i]? = some c → s[i]? = some si →
        o (i + 1) = w.layernorm i (c (o i) si).1 ∧
        (inner_cell w x s).2[i]? = some (c (o i) si).2 := by
  obtain ⟨o, h0, h1, h2, h3⟩ := stackedLoop_eq w w.cells 0 x s hs
  refine ⟨o, h0, h1, h2, ?_⟩
  intro i c si hc hsi
  have := h3 i c si hc hsi
  rwa [Nat.zero_add] at this

end

/-! ## Example: a body with two children, integer networks -/

/-- One recurrent cell adding its input; the message is ten times the state. -/
def exWeights : RingWeights Int Int Int Int where
  send_msg v := 10 * v
  hidden v := v
  concat x p c := x + p + 100 * c
  cells := [fun x s => (x + s, x + s)]
  layernorm _ v := v
  send_output v := v
  output_transform y := y

example : unroll exWeights [-1, 0, 0] [[1, 2, 3], [0, 0, 1]] [[0], [0], [0]]
    = ([[1, 2, 3], [5001, 12, 14]], [[5001], [12], [14]]) := by decide

/-- Bodies 0 and 1 exchanged. -/
example : unroll exWeights [1, -1, 1] [[2, 1, 3], [0, 0, 1]] [[0], [0], [0]]
    = ([[2, 1, 3], [12, 5001, 14]], [[12], [5001], [14]]) := by decide

example : ParentsRelabelled (Equiv.swap (0 : Fin 3) 1) [-1, 0, 0] [1, -1, 1] :=
  ⟨rfl, rfl, fun i => by
    fin_cases i
    · exact Or.inl ⟨rfl, rfl⟩
    · exact Or.inr ⟨0, rfl, rfl⟩
    · exact Or.inr ⟨0, rfl, rfl⟩⟩

example : List.Forall₂ (Relabelled (Equiv.swap (0 : Fin 3) 1))
    [[1, 2, 3], [0, 0, 1]] [[2, 1, 3], [0, 0, (1 : Int)]] :=
  .cons ⟨rfl, rfl, fun i => by fin_cases i <;> rfl⟩
    (.cons ⟨rfl, rfl, fun i => by fin_cases i <;> rfl⟩ .nil)

/-- Two components: what happens in `{2, 3}` does not reach body 0. -/
example : ¬ Connected [-1, 0, -1, 2] 0 3 := by
  have key : ∀ j, Connected [-1, 0, -1, 2] 0 j → j < 2 := by
    intro j h
    induction h with
    | refl => decide
    | @tail b c _ h ih =>
      rcases h with h | h
      · match b, ih with
        | 0, _ => simp at h
        | 1, _ => simp at h; omega
      · match b, ih, c with
        | b, ih, 0 => decide
        | b, ih, 1 => decide
        | b, ih, 2 => simp at h
        | b, ih, 3 => simp at h; omega
        | b, ih, n + 4 => simp at h
  intro h
  exact absurd (key 3 h) (by decide)

end RingLib.ml
