import Verif.Model.Rnno
import Verif.Props.Files

/-!
# Recurrent cells and the network RNNO (C89)
-/

namespace RingLib.ml
open Real

/-! ## The cell -/

theorem sigmoid_pos (x : ℝ) : 0 < sigmoid x := by unfold sigmoid; positivity

theorem sigmoid_lt_one (x : ℝ) : sigmoid x < 1 := by
  unfold sigmoid
  rw [div_lt_one (by positivity)]
  linarith [exp_pos (-x)]

theorem abs_tanh_lt (x : ℝ) : |tanh x| < 1 := abs_lt.2 ⟨neg_one_lt_tanh x, tanh_lt_one x⟩

/-- The gates of component `j`: input gate, candidate, forget gate, output gate. -/
noncomputable def gate (n : Nat) (linear : List ℝ → List ℝ) (x h : List ℝ) (k j : Nat) : ℝ :=
  (linear (x ++ h)).getD (k * n + j) 0

/-- C89: the equations of the LSTM cell, component by component: the state is the output followed by the cell
state, the new cell state is the old one times the forget gate (with bias one) plus the candidate times the
input gate, and the output is the squashed cell state times the output gate. -/
theorem C89_lstm {n : Nat} {linear : List ℝ → List ℝ} (hlin : ∀ v, (linear v).length = 4 * n)
    (x h c : List ℝ) (hh : h.length = n) (hc : c.length = n) :
    ∃ h' c' : List ℝ, LSTM n linear x (h ++ c) = (h', h' ++ c') ∧ h'.length = n ∧ c'.length = n ∧
      ∀ j < n,
        c'.getD j 0 = sigmoid (gate n linear x h 2 j + 1) * c.getD j 0 +
          sigmoid (gate n linear x h 0 j) * tanh (gate n linear x h 1 j) ∧
        h'.getD j 0 = sigmoid (gate n linear x h 3 j) * tanh (c'.getD j 0) := by
  have hl := hlin (x ++ h)
  subst hh
  have h1 : (h ++ c).take h.length = h := by simp
  have h2 : (h ++ c).drop h.length = c := by simp
  refine ⟨_, _, rfl, ?_, ?_, ?_⟩
  · simp only [h1, h2, List.length_zipWith, List.length_map, List.length_take, List.length_drop, hl, hc]; omega
  · simp only [h1, h2, List.length_zipWith, List.length_map, List.length_take, List.length_drop, hl, hc]; omega
  · intro j hj
    simp only [h1, h2, gate]
    have a0 : j < (linear (x ++ h)).length := by omega
    have a1 : h.length + j < (linear (x ++ h)).length := by omega
    have a2 : 2 * h.length + j < (linear (x ++ h)).length := by omega
    have a3 : 3 * h.length + j < (linear (x ++ h)).length := by omega
    have a4 : j < c.length := by omega
    simp only [List.getD_eq_getElem?_getD, List.getElem?_zipWith, List.getElem?_map, List.getElem?_take,
      List.getElem?_drop, hj, if_true, zero_mul, zero_add, one_mul, List.getElem?_eq_getElem a0,
      List.getElem?_eq_getElem a1, List.getElem?_eq_getElem a2, List.getElem?_eq_getElem a3,
      List.getElem?_eq_getElem a4, Option.map_some, Option.getD_some]
    exact ⟨trivial, trivial⟩

/-- C89: the outputs of the cell lie strictly between minus one and one, whatever the weights; the cell state
grows by less than one in a step. -/
theorem C89_lstm_bounds {n : Nat} {linear : List ℝ → List ℝ} (hlin : ∀ v, (linear v).length = 4 * n)
    (x h c : List ℝ) (hh : h.length = n) (hc : c.length = n) :
    ∃ h' c' : List ℝ, LSTM n linear x (h ++ c) = (h', h' ++ c') ∧ h'.length = n ∧ c'.length = n ∧
      ∀ j < n, |h'.getD j 0| < 1 ∧ |c'.getD j 0| < |c.getD j 0| + 1 := by
  obtain ⟨h', c', e, l1, l2, hj⟩ := C89_lstm hlin x h c hh hc
  refine ⟨h', c', e, l1, l2, fun j hjn => ?_⟩
  obtain ⟨e1, e2⟩ := hj j hjn
  constructor
  · rw [e2, abs_mul, abs_of_pos (sigmoid_pos _)]
    have := sigmoid_lt_one (gate n linear x h 3 j)
    have := sigmoid_pos (gate n linear x h 3 j)
    have := abs_tanh_lt (c'.getD j 0)
    nlinarith [abs_nonneg (tanh (c'.getD j 0))]
  · rw [e1]
    refine (abs_add_le _ _).trans_lt ?_
    rw [abs_mul, abs_mul, abs_of_pos (sigmoid_pos _), abs_of_pos (sigmoid_pos _)]
    have a1 := sigmoid_lt_one (gate n linear x h 2 j + 1)
    have a2 := sigmoid_lt_one (gate n linear x h 0 j)
    have a3 := sigmoid_pos (gate n linear x h 0 j)
    have a4 := abs_tanh_lt (gate n linear x h 1 j)
    nlinarith [abs_nonneg (tanh (gate n linear x h 1 j)), abs_nonneg (c.getD j 0)]

/-- C89: over a sequence that starts with the state zero, all outputs lie between minus one and one, and after
`T` steps the components of the cell state are at most `T`. -/
theorem C89_lstm_sequence {n : Nat} {linear : List ℝ → List ℝ} (hlin : ∀ v, (linear v).length = 4 * n)
    (xs : List (List ℝ)) :
    (∀ o ∈ (unrollCell (LSTM n linear) xs (List.replicate (2 * n) 0)).1, o.length = n ∧ ∀ v ∈ o, |v| < 1) ∧
    ∃ h c : List ℝ, (unrollCell (LSTM n linear) xs (List.replicate (2 * n) 0)).2 = h ++ c ∧
      h.length = n ∧ c.length = n ∧ ∀ v ∈ c, |v| ≤ xs.length := by
  have key : ∀ (xs : List (List ℝ)) (h c : List ℝ) (b : ℝ), h.length = n → c.length = n → (∀ v ∈ c, |v| ≤ b) →
      (∀ o ∈ (unrollCell (LSTM n linear) xs (h ++ c)).1, o.length = n ∧ ∀ v ∈ o, |v| < 1) ∧
      ∃ h' c' : List ℝ, (unrollCell (LSTM n linear) xs (h ++ c)).2 = h' ++ c' ∧
        h'.length = n ∧ c'.length = n ∧ ∀ v ∈ c', |v| ≤ b + xs.length := by
    intro xs
    induction xs with
    | nil =>
      intro h c b hh hc hb
      exact ⟨by simp [unrollCell], h, c, rfl, hh, hc, by simpa using hb⟩
    | cons x xs ih =>
      intro h c b hh hc hb
      obtain ⟨h', c', e, l1, l2, hj⟩ := C89_lstm_bounds hlin x h c hh hc
      have hc' : ∀ v ∈ c', |v| ≤ b + 1 := by
        intro v hv
        obtain ⟨j, hj', rfl⟩ := List.getElem_of_mem hv
        have h1 := (hj j (by omega)).2
        have h2 := hb c[j] (List.getElem_mem _)
        simp only [List.getD_eq_getElem?_getD, List.getElem?_eq_getElem hj',
          List.getElem?_eq_getElem (show j < c.length by omega), Option.getD_some] at h1
        linarith
      obtain ⟨i1, h2, c2, i2, i3, i4, i5⟩ := ih h' c' (b + 1) l1 l2 hc'
      simp only [unrollCell, e]
      refine ⟨?_, h2, c2, i2, i3, i4, fun v hv => ?_⟩
      · intro o ho
        rcases List.mem_cons.1 ho with rfl | ho
        · refine ⟨l1, fun v hv => ?_⟩
          obtain ⟨j, hj', rfl⟩ := List.getElem_of_mem hv
          have h1 := (hj j (by omega)).1
          simpa only [List.getD_eq_getElem?_getD, List.getElem?_eq_getElem hj', Option.getD_some] using h1
        · exact i1 o ho
      · have := i5 v hv
        rw [List.length_cons]
        push_cast
        linarith
  have := key xs (List.replicate n 0) (List.replicate n 0) 0 (by simp) (by simp) (by simp)
  rw [List.replicate_append_replicate, ← two_mul] at this
  simpa using this

/-- a linear layer of the right size -/
example : ∀ v : List ℝ, ((fun v : List ℝ => List.replicate (4 * 2) v.sum) v).length = 4 * 2 := by simp

/-- C89: the state has one number per unit for `gru`, two for `lstm`; other kinds of cells raise. -/
theorem C89_cell (celltype : String) :
    (cellFactor celltype = .ok 1 ↔ celltype = "gru") ∧ (cellFactor celltype = .ok 2 ↔ celltype = "lstm") ∧
    (celltype ≠ "gru" → celltype ≠ "lstm" → cellFactor celltype = .error .notImplemented) := by
  unfold cellFactor
  refine ⟨?_, ?_, ?_⟩
  · split <;> simp_all
    split <;> simp_all
  · split <;> simp_all
  · intro h1 h2
    simp [h1, h2]

/-! ## The network -/

variable {V Y : Type}

/-- Features of a single body. -/
def single (xs : List V) : List (List V) := xs.map fun x => [x]

theorem oneBody_single (xs : List V) : oneBody (single xs) = .ok xs := by
  induction xs with
  | nil => rfl
  | cons x xs ih =>
    simp only [single, List.map_cons, oneBody, List.mapM_cons] at ih ⊢
    rw [ih]
    rfl

theorem unrollCell_append (cell : V → V → V × V) (xs ys : List V) (s : V) :
    unrollCell cell (xs ++ ys) s = ((unrollCell cell xs s).1 ++ (unrollCell cell ys (unrollCell cell xs s).2).1,
      (unrollCell cell ys (unrollCell cell xs s).2).2) := by
  induction xs generalizing s with
  | nil => simp [unrollCell]
  | cons x xs ih => simp [unrollCell, ih]

theorem unrollCell_length (cell : V → V → V × V) (xs : List V) (s : V) :
    (unrollCell cell xs s).1.length = xs.length := by
  induction xs generalizing s with
  | nil => rfl
  | cons x xs ih => simp [unrollCell, ih]

theorem rnnLayers_append (w : RnnoWeights V Y) (cells : List (V → V → V × V)) (xs ys ss : List V)
    (hs : ss.length = cells.length) :
    rnnLayers w cells (xs ++ ys) ss = ((rnnLayers w cells xs ss).1 ++
        (rnnLayers w cells ys (rnnLayers w cells xs ss).2).1,
      (rnnLayers w cells ys (rnnLayers w cells xs ss).2).2) := by
  induction cells generalizing xs ys ss with
  | nil =>
    match ss, hs with
    | [], _ => simp [rnnLayers]
  | cons c cs ih =>
    match ss, hs with
    | s :: ss, hs =>
      simp only [rnnLayers, unrollCell_append, List.map_append]
      rw [ih _ _ _ (by simpa using hs)]

theorem rnnLayers_length (w : RnnoWeights V Y) (cells : List (V → V → V × V)) (xs ss : List V)
    (hs : ss.length = cells.length) :
    (rnnLayers w cells xs ss).1.length = xs.length ∧ (rnnLayers w cells xs ss).2.length = cells.length := by
  induction cells generalizing xs ss with
  | nil =>
    match ss, hs with
    | [], _ => simp [rnnLayers]
  | cons c cs ih =>
    match ss, hs with
    | s :: ss, hs =>
      have := ih ((unrollCell c xs s).1.map fun x => w.act_fn_rnn (w.layernorm x)) ss (by simpa using hs)
      simp only [List.length_map, unrollCell_length] at this
      simp [rnnLayers, this]

/-- the linear layers for one time step -/
def linearStep (w : RnnoWeights V Y) (x : V) : V := w.linear.foldl (fun x lin => w.act_fn_linear (lin x)) x

theorem linearLayers_eq (w : RnnoWeights V Y) (X : List V) : linearLayers w X = X.map (linearStep w) := by
  unfold linearLayers linearStep
  induction w.linear generalizing X with
  | nil => simp
  | cons l ls ih =>
    rw [List.foldl_cons, ih, List.map_map]
    rfl

/-- C89: one output for each time step, for a single body, and one state per recurrent layer. -/
theorem C89_shape (w : RnnoWeights V Y) (xs ss : List V) (hs : ss.length = w.cells.length) :
    ∃ (ys : List Y) (ss' : List V), rnno_v1_forward w (single xs) ss = .ok (ys.map fun y => [y], ss') ∧
      ys.length = xs.length ∧ ss'.length = w.cells.length := by
  obtain ⟨h1, h2⟩ := rnnLayers_length w w.cells xs ss hs
  refine ⟨(linearLayers w (rnnLayers w w.cells xs ss).1).map w.out, _, ?_, ?_, h2⟩
  · simp only [rnno_v1_forward, oneBody_single]
    simp [Bind.bind, Except.bind]
  · rw [List.length_map, linearLayers_eq, List.length_map, h1]

/-- C89: features of a number of bodies other than one raise. -/
theorem C89_bodies (w : RnnoWeights V Y) (X : List (List V)) (ss : List V) (h : ∃ x ∈ X, x.length ≠ 1) :
    rnno_v1_forward w X ss = .error .assertion := by
  have : oneBody X = .error .assertion := by
    obtain ⟨x, hx, hl⟩ := h
    induction X with
    | nil => simp at hx
    | cons x' X ih =>
      simp only [oneBody, List.mapM_cons]
      rcases List.mem_cons.1 hx with rfl | hx
      · match x, hl with
        | [], _ => rfl
        | [_], hl => simp at hl
        | _ :: _ :: _, _ => rfl
      · have := ih hx
        simp only [oneBody] at this
        rw [this]
        match x' with
        | [] => rfl
        | [_] => rfl
        | _ :: _ :: _ => rfl
  simp only [rnno_v1_forward, this]
  rfl

/-- C89: feeding a sequence in two parts, with the state of the first part passed on, gives the outputs and the
state of the whole. -/
theorem C89_chunks (w : RnnoWeights V Y) (xs ys ss : List V) (hs : ss.length = w.cells.length) :
    ∃ a s b s', rnno_v1_forward w (single xs) ss = .ok (a, s) ∧ rnno_v1_forward w (single ys) s = .ok (b, s') ∧
      rnno_v1_forward w (single (xs ++ ys)) ss = .ok (a ++ b, s') := by
  have hf : ∀ zs s, rnno_v1_forward w (single zs) s =
      .ok ((rnnLayers w w.cells zs s).1.map fun x => [w.out (linearStep w x)], (rnnLayers w w.cells zs s).2) := by
    intro zs s
    simp only [rnno_v1_forward, oneBody_single, linearLayers_eq, List.map_map]
    rfl
  refine ⟨_, _, _, _, hf xs ss, hf ys _, ?_⟩
  rw [hf, rnnLayers_append w w.cells xs ys ss hs, List.map_append]

/-- C89: outputs do not depend on later features. -/
theorem C89_causal (w : RnnoWeights V Y) (xs ys ys' ss : List V) (hs : ss.length = w.cells.length) :
    ∃ a b b' s s', rnno_v1_forward w (single (xs ++ ys)) ss = .ok (a ++ b, s) ∧
      rnno_v1_forward w (single (xs ++ ys')) ss = .ok (a ++ b', s') ∧ a.length = xs.length := by
  obtain ⟨a, s, b, s', h1, h2, h3⟩ := C89_chunks w xs ys ss hs
  obtain ⟨a', s2, b', s2', k1, k2, k3⟩ := C89_chunks w xs ys' ss hs
  rw [h1] at k1
  obtain ⟨rfl, rfl⟩ := Prod.mk.inj (Except.ok.inj k1)
  refine ⟨a, b, b', s', s2', h3, k3, ?_⟩
  obtain ⟨ys, ss', e, hl, -⟩ := C89_shape w xs ss hs
  rw [h1] at e
  obtain ⟨rfl, rfl⟩ := Prod.mk.inj (Except.ok.inj e)
  rw [List.length_map, hl]

/-- C89: a time step: the first cell gets the features, each later one the normalised and activated output of the
one before, each its own state; the linear layers with their activation follow in order, and the last layer has
no activation. -/
theorem C89_step (w : RnnoWeights V Y) (x : V) (ss : List V) (hs : ss.length = w.cells.length) :
    ∃ o : Nat → V, o 0 = x ∧
      (∀ (i : Nat) (c : V → V → V × V) (s : V), w.cells[i]? = some c → ss[i]? = some s →
        o (i + 1) = w.act_fn_rnn (w.layernorm (c (o i) s).1)) ∧
      ∃ l : Nat → V, l 0 = o w.cells.length ∧
        (∀ (i : Nat) (lin : V → V), w.linear[i]? = some lin → l (i + 1) = w.act_fn_linear (lin (l i))) ∧
        ∃ ss' : List V, rnno_v1_forward w (single [x]) ss = .ok ([[w.out (l w.linear.length)]], ss') ∧
          ∀ (i : Nat) (c : V → V → V × V) (s : V), w.cells[i]? = some c → ss[i]? = some s →
            ss'[i]? = some (c (o i) s).2 := by
  have hr : ∀ (cells : List (V → V → V × V)) (x : V) (ss : List V), ss.length = cells.length →
      ∃ o : Nat → V, o 0 = x ∧ (rnnLayers w cells [x] ss).1 = [o cells.length] ∧
        ∀ (i : Nat) (c : V → V → V × V) (s : V), cells[i]? = some c → ss[i]? = some s →
          o (i + 1) = w.act_fn_rnn (w.layernorm (c (o i) s).1) ∧
          (rnnLayers w cells [x] ss).2[i]? = some (c (o i) s).2 := by
    intro cells
    induction cells with
    | nil =>
      intro x ss hs
      match ss, hs with
      | [], _ => exact ⟨fun _ => x, rfl, rfl, by simp⟩
    | cons c cs ih =>
      intro x ss hs
      match ss, hs with
      | s :: ss, hs =>
        obtain ⟨o, h0, h1, h2⟩ := ih (w.act_fn_rnn (w.layernorm (c x s).1)) ss (by simpa using hs)
        refine ⟨fun n => if n = 0 then x else o (n - 1), rfl, ?_, ?_⟩
        · simpa [rnnLayers, unrollCell] using h1
        · intro i c' s' hc hs'
          match i with
          | 0 =>
            simp only [List.getElem?_cons_zero, Option.some.injEq] at hc hs'
            subst hc hs'
            simp [rnnLayers, unrollCell, h0]
          | i + 1 =>
            have := h2 i c' s' (by simpa using hc) (by simpa using hs')
            simpa [rnnLayers, unrollCell] using this
  have hl : ∀ (ls : List (V → V)) (x : V), ∃ l : Nat → V, l 0 = x ∧
      ls.foldl (fun x lin => w.act_fn_linear (lin x)) x = l ls.length ∧
      ∀ (i : Nat) (lin : V → V), ls[i]? = some lin → l (i + 1) = w.act_fn_linear (lin (l i)) := by
    intro ls
    induction ls with
    | nil => exact fun x => ⟨fun _ => x, rfl, rfl, by simp⟩
    | cons lin ls ih =>
      intro x
      obtain ⟨l, h0, h1, h2⟩ := ih (w.act_fn_linear (lin x))
      refine ⟨fun n => if n = 0 then x else l (n - 1), rfl, by simpa using h1, ?_⟩
      intro i lin' hi
      match i with
      | 0 =>
        simp only [List.getElem?_cons_zero, Option.some.injEq] at hi
        subst hi
        simp [h0]
      | i + 1 => simpa using h2 i lin' (by simpa using hi)
  obtain ⟨o, h0, h1, h2⟩ := hr w.cells x ss hs
  obtain ⟨l, k0, k1, k2⟩ := hl w.linear (o w.cells.length)
  refine ⟨o, h0, fun i c s hc hs' => (h2 i c s hc hs').1, l, k0, k2, (rnnLayers w w.cells [x] ss).2, ?_,
    fun i c s hc hs' => (h2 i c s hc hs').2⟩
  simp only [rnno_v1_forward, oneBody_single, linearLayers_eq, Bind.bind, Except.bind, h1, linearStep,
    List.map_cons, List.map_nil, k1]

/-- two recurrent layers, one linear layer, over integers -/
def exRnno : RnnoWeights Int Int where
  cells := [fun x s => (x + s, x + s), fun x s => (x - s, x)]
  layernorm v := 2 * v
  act_fn_rnn v := v + 1
  linear := [fun v => 10 * v]
  act_fn_linear v := max v 0
  out v := v - 1

example : rnno_v1_forward exRnno (single [1, 2]) [0, 0] = .ok ([[69], [89]], [3, 7]) := by decide

/-! ## Parameters -/

open utils in
/-- C89: parameters given as such are used, none is none, a path gives what `pickle_save` has saved under it, and
anything else raises. -/
theorem C89_load_params {P : Type} (fs : FS P) :
    (∀ d, _load_params fs (.dict d) = .ok (some d)) ∧ _load_params fs .none = .ok none ∧
    _load_params fs .other = .error .assertion ∧
    (∀ p d, (utils.pickle_load fs p).1 = .ok d → _load_params fs (.path p) = .ok (some d)) ∧
    (∀ p e, (utils.pickle_load fs p).1 = .error e → _load_params fs (.path p) = .error e) := by
  refine ⟨fun _ => rfl, rfl, rfl, fun p d h => ?_, fun p e h => ?_⟩ <;> simp [_load_params, h, Except.map]

end RingLib.ml
