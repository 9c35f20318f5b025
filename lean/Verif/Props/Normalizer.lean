import Verif.Model.Normalizer
import Verif.Lemmas.Desc
import Verif.Lemmas.Scan
import Mathlib.Tactic.FieldSimp
import Mathlib.Tactic.Positivity
import Mathlib.Algebra.BigOperators.Group.List.Basic
import Mathlib.Data.List.Perm.Basic

/-! # Normalization of inputs -/

namespace RingLib
open normalizer System

/-! ## the sample -/

variable {K : Type}

/-- the key of call `i` -/
def callKey (R : Rng K) (KEY : K) (i : Nat) : K := R.split ((fun k => R.split k 2 0)^[i] KEY) 2 1

theorem draws_eq (R : Rng K) (gen : K → List Arr3) (n : Nat) (KEY : K) :
    draws R gen n KEY = (List.range n).map fun i => gen (callKey R KEY i) := by
  induction n generalizing KEY with
  | zero => rfl
  | succ n ih =>
    unfold draws
    rw [ih, List.range_succ_eq_map, List.map_cons, List.map_map]
    rfl

/-- the generator gives batches of `bs` sequences, of the same structure -/
def Batched (gen : K → List Arr3) (m bs : Nat) : Prop :=
  ∀ k, (gen k).length = m ∧ ∀ a ∈ gen k, a.length = bs

/-- all sequences of `n` calls -/
def allSeqs (R : Rng K) (KEY : K) (gen : K → List Arr3) (n j : Nat) : Arr3 :=
  ((List.range n).map fun i => (gen (callKey R KEY i)).getD j []).flatten

theorem allSeqs_length {R : Rng K} {KEY : K} {gen : K → List Arr3} {m bs : Nat} (h : Batched gen m bs)
    (n j : Nat) (hj : j < m) : (allSeqs R KEY gen n j).length = n * bs := by
  unfold allSeqs
  rw [List.length_flatten, List.map_map]
  have : (List.map (List.length ∘ fun i => (gen (callKey R KEY i)).getD j []) (List.range n)) =
      List.replicate n bs := by
    rw [List.eq_replicate_iff]
    refine ⟨by simp, ?_⟩
    intro b hb
    obtain ⟨i, -, rfl⟩ := List.mem_map.1 hb
    have hl := h (callKey R KEY i)
    simp only [Function.comp_apply]
    rw [List.getD_eq_getElem?_getD, List.getElem?_eq_getElem (by omega), Option.getD_some]
    exact hl.2 _ (List.getElem_mem _)
  rw [this]
  simp

theorem perm_range {R : Rng K} (hR : R.Ok) (k : K) (n : Nat) :
    ((List.range n).map (R.perm k n)).Perm (List.range n) := by
  have hn : ((List.range n).map (R.perm k n)).Nodup := by
    apply List.Nodup.map_on _ List.nodup_range
    intro i hi j hj h
    exact hR.perm_inj k n i j (List.mem_range.1 hi) (List.mem_range.1 hj) h
  have hsub : (List.range n).map (R.perm k n) ⊆ List.range n := by
    intro x hx
    obtain ⟨i, hi, rfl⟩ := List.mem_map.1 hx
    exact List.mem_range.2 (hR.perm_lt k n i (List.mem_range.1 hi))
  exact (List.subperm_of_subset hn hsub).perm_of_length_le (by simp)

theorem concat_cons (X : List Arr3) (Xs : List (List Arr3)) : concat (X :: Xs) =
    .ok ((List.range X.length).map fun j => ((X :: Xs).map (·.getD j [])).flatten) := rfl

/-- C82: the generator is called just as often as needed to get the requested number of sequences, every
time with its own key, and the statistics are taken from exactly that number of different sequences:
those that come first in an order that all arrays of the tree share. -/
theorem C82_sample {R : Rng K} (hR : R.Ok) {KEY KP : K} {gen : K → List Arr3} {m bs : Nat}
    (hg : Batched gen m bs) (hm : 0 < m) (hbs : 0 < bs) {size : Nat} (hs : 0 < size) :
    ∃ n Xs order, sample R KEY KP gen size = .ok Xs ∧ Xs.length = m ∧
      size ≤ n * bs ∧ (n - 1) * bs < size ∧ List.Perm order (List.range (n * bs)) ∧
      ∀ j < m, (Xs.getD j []).length = size ∧
        Xs.getD j [] = (order.take size).map ((allSeqs R KEY gen n j).getD · []) := by
  have hb : ((gen KEY).headD []).length = bs := by
    have h := hg KEY
    obtain ⟨a, l, hl⟩ : ∃ a l, gen KEY = a :: l :=
      List.exists_cons_of_ne_nil (by intro h'; rw [h'] at h; simp at h; omega)
    rw [hl]
    exact h.2 a (by simp [hl])
  set n := (size + bs - 1) / bs with hn
  have h1 : size ≤ n * bs := by
    have e1 := Nat.div_add_mod (size + bs - 1) bs
    have e2 := Nat.mod_lt (size + bs - 1) hbs
    rw [← hn, mul_comm] at e1
    omega
  have hn0 : 0 < n := Nat.div_pos (by omega) hbs
  have h2 : (n - 1) * bs < size := by
    have e1 := Nat.div_mul_le_self (size + bs - 1) bs
    rw [← hn] at e1
    obtain ⟨k, hk⟩ : ∃ k, n = k + 1 := ⟨n - 1, by omega⟩
    rw [hk, Nat.succ_mul] at e1
    rw [hk, Nat.add_sub_cancel]
    omega
  set order := (List.range (n * bs)).map (R.perm KP (n * bs)) with ho
  have hconcat : concat (draws R gen n KEY) =
      .ok ((List.range m).map fun j => allSeqs R KEY gen n j) := by
    rw [draws_eq]
    obtain ⟨k, hk⟩ : ∃ k, n = k + 1 := ⟨n - 1, by omega⟩
    rw [hk, List.range_succ_eq_map, List.map_cons]
    rw [concat_cons, (hg _).1, ← List.map_cons (f := fun i => gen (callKey R KEY i)), ← List.range_succ_eq_map]
    simp only [List.map_map]
    rfl
  have hperm : ∀ j < m, permute R KP (allSeqs R KEY gen n j) =
      order.map ((allSeqs R KEY gen n j).getD · []) := by
    intro j hj
    unfold permute
    rw [allSeqs_length hg n j hj, ho, List.map_map]
    rfl
  refine ⟨n, (List.range m).map fun j => (order.take size).map ((allSeqs R KEY gen n j).getD · []),
    order, ?_, by simp, h1, h2, perm_range hR KP _, ?_⟩
  · unfold sample
    dsimp only
    rw [hb, if_neg (by omega), ← hn, hconcat, ok_bind, List.map_map, System.mapM_ok (g := fun a => a.take size)]
    · rw [List.map_map]
      congr 1
      apply List.map_congr_left
      intro j hj
      simp only [Function.comp_apply]
      rw [hperm j (List.mem_range.1 hj), List.map_take]
    · intro a ha
      obtain ⟨j, hj, rfl⟩ := List.mem_map.1 ha
      unfold slice
      simp only [Function.comp_apply]
      rw [if_neg]
      rw [hperm j (List.mem_range.1 hj), List.length_map, ho]
      simpa using h1
  · intro j hj
    rw [List.getD_eq_getElem?_getD, List.getElem?_map, List.getElem?_range hj, Option.map_some,
      Option.getD_some]
    refine ⟨?_, rfl⟩
    simp [ho]
    omega

/-- C82: without sequences, or if none are asked for, an error is raised. -/
theorem C82_sample_none (R : Rng K) (KEY KP : K) (gen : K → List Arr3) :
    (((gen KEY).headD []).length = 0 → ∀ size, sample R KEY KP gen size = .error .zeroDivision) ∧
    (((gen KEY).headD []).length ≠ 0 → sample R KEY KP gen 0 = .error .index) := by
  constructor
  · intro h size
    unfold sample
    dsimp only
    rw [if_pos h]
  · intro h
    unfold sample
    dsimp only
    rw [if_neg h, Nat.div_eq_of_lt (by omega)]
    rfl

/-! ## mean and standard deviation -/

/-- `m` is the mean of `l` -/
def IsMean (l : List ℝ) (m : ℝ) : Prop := l.sum = l.length * m

/-- `s` is the standard deviation of `l` -/
def IsStd (l : List ℝ) (s : ℝ) : Prop :=
  0 ≤ s ∧ ∃ m, IsMean l m ∧ (l.map fun x => (x - m) ^ 2).sum = l.length * s ^ 2

theorem avg_isMean {l : List ℝ} (h : l ≠ []) : IsMean l (avg l) := by
  have : (l.length : ℝ) ≠ 0 := by
    have := List.length_pos_iff.2 h
    positivity
  unfold IsMean avg
  field_simp

theorem isMean_unique {l : List ℝ} (h : l ≠ []) {m m' : ℝ} (h1 : IsMean l m) (h2 : IsMean l m') :
    m = m' := by
  have : (l.length : ℝ) ≠ 0 := by
    have := List.length_pos_iff.2 h
    positivity
  unfold IsMean at h1 h2
  rw [h1] at h2
  exact mul_left_cancel₀ this h2

theorem avg_nonneg {l : List ℝ} (h : ∀ x ∈ l, 0 ≤ x) : 0 ≤ avg l := by
  unfold avg
  have : 0 ≤ l.sum := List.sum_nonneg h
  positivity

theorem sqrt_isStd {l : List ℝ} (h : l ≠ []) :
    IsStd l √(avg (l.map fun x => (x - avg l) ^ 2)) := by
  refine ⟨Real.sqrt_nonneg _, avg l, avg_isMean h, ?_⟩
  rw [Real.sq_sqrt]
  · have := avg_isMean (l := l.map fun x => (x - avg l) ^ 2) (by simpa using h)
    unfold IsMean at this
    rw [this, List.length_map]
  · apply avg_nonneg
    intro x hx
    obtain ⟨y, -, rfl⟩ := List.mem_map.1 hx
    positivity

theorem sum_map_affine (l : List ℝ) (m c : ℝ) :
    (l.map fun x => (x - m) / c).sum = (l.sum - l.length * m) / c := by
  induction l with
  | nil => simp
  | cons a l ih =>
    rw [List.map_cons, List.sum_cons, ih, List.sum_cons, List.length_cons]
    push_cast
    ring

theorem sum_map_div_sq (l : List ℝ) (m c : ℝ) :
    (l.map fun x => ((x - m) / c - 0) ^ 2).sum = (l.map fun x => (x - m) ^ 2).sum / c ^ 2 := by
  induction l with
  | nil => simp
  | cons a l ih =>
    rw [List.map_cons, List.sum_cons, ih, List.map_cons, List.sum_cons]
    ring

/-- all sequences have the same number of time steps, all time steps the same features -/
def Rect (a : Arr3) (T F : Nat) : Prop := ∀ s ∈ a, s.length = T ∧ ∀ x ∈ s, x.length = F

theorem features_rect {a : Arr3} {T F : Nat} (h : Rect a T F) (ha : a ≠ []) (hT : 0 < T) :
    features a = F := by
  obtain ⟨s, l, rfl⟩ := List.exists_cons_of_ne_nil ha
  have hs := h s (by simp)
  obtain ⟨x, xs, rfl⟩ := List.exists_cons_of_ne_nil (show s ≠ [] by
    rintro rfl
    have := hs.1
    simp at this
    omega)
  exact hs.2 x (by simp)

theorem channel_length {a : Arr3} {T F : Nat} (h : Rect a T F) (f : Nat) :
    (channel a f).length = a.length * T := by
  induction a with
  | nil => simp [channel]
  | cons s a ih =>
    have := ih fun s hs => h s (by simp [hs])
    have h2 := (h s (by simp)).1
    unfold channel at this ⊢
    rw [List.flatMap_cons, List.length_append, this, List.length_map, h2, List.length_cons]
    ring

theorem channel_normalize {a : Arr3} {T F : Nat} (h : Rect a T F) (m s : List ℝ) {f : Nat}
    (hf : f < F) : channel (normArr m s a) f =
      (channel a f).map fun x => (x - m.getD f 0) / (s.getD f 0 + eps) := by
  induction a with
  | nil => rfl
  | cons q a ih =>
    have h1 := ih fun s hs => h s (by simp [hs])
    have h2 := (h q (by simp)).2
    unfold channel normArr at h1 ⊢
    rw [List.map_cons, List.flatMap_cons, List.flatMap_cons, List.map_append, h1]
    congr 1
    rw [List.map_map, List.map_map]
    apply List.map_congr_left
    intro x hx
    simp only [Function.comp_apply]
    rw [List.getD_eq_getElem?_getD, List.getElem?_map, List.getElem?_range (by rw [h2 x hx]; exact hf)]
    rfl

theorem getD_map_range {F f : Nat} (h : f < F) (g : Nat → ℝ) :
    ((List.range F).map g).getD f 0 = g f := by
  rw [List.getD_eq_getElem?_getD, List.getElem?_map, List.getElem?_range h]
  rfl

theorem eps_pos : 0 < eps := by unfold eps; norm_num

/-- C82: the statistics are the mean and the standard deviation of every feature over all sequences and
time steps. -/
theorem C82_statistics {a : Arr3} {T F : Nat} (h : Rect a T F) (ha : a ≠ []) (hT : 0 < T) :
    (mean a).length = F ∧ (std a).length = F ∧ ∀ f < F, IsMean (channel a f) ((mean a).getD f 0) ∧
      IsStd (channel a f) ((std a).getD f 0) := by
  have hne : ∀ f, channel a f ≠ [] := by
    intro f hc
    have := channel_length h f
    rw [hc] at this
    have h3 := Nat.mul_pos (List.length_pos_iff.2 ha) hT
    rw [List.length_nil] at this
    omega
  unfold mean std
  rw [features_rect h ha hT]
  refine ⟨by simp, by simp, fun f hf => ?_⟩
  rw [getD_map_range hf, getD_map_range hf]
  exact ⟨avg_isMean (hne f), sqrt_isStd (hne f)⟩

/-- C82: normalizing the arrays that the statistics come from gives every feature the mean 0 and the
standard deviation `σ / (σ + eps)`, which is less than 1; features that do not vary become 0. -/
theorem C82_normalized {a : Arr3} {T F : Nat} (h : Rect a T F) (ha : a ≠ []) (hT : 0 < T) {f : Nat}
    (hf : f < F) :
    IsMean (channel (normArr (mean a) (std a) a) f) 0 ∧
    IsStd (channel (normArr (mean a) (std a) a) f) ((std a).getD f 0 / ((std a).getD f 0 + eps)) ∧
    (std a).getD f 0 / ((std a).getD f 0 + eps) < 1 ∧
    ((std a).getD f 0 = 0 → ∀ y ∈ channel (normArr (mean a) (std a) a) f, y = 0) := by
  obtain ⟨-, -, hst⟩ := C82_statistics h ha hT
  obtain ⟨hm, hs0, m', hm', hs⟩ := hst f hf
  have hne : channel a f ≠ [] := by
    intro hc
    have := channel_length h f
    rw [hc] at this
    have h3 := Nat.mul_pos (List.length_pos_iff.2 ha) hT
    rw [List.length_nil] at this
    omega
  have := isMean_unique hne hm' hm
  subst this
  rw [channel_normalize h _ _ hf]
  set σ := (std a).getD f 0 with hσ
  set μ := (mean a).getD f 0 with hμ
  have hpos : 0 < σ + eps := add_pos_of_nonneg_of_pos hs0 eps_pos
  have hmean : IsMean ((channel a f).map fun x => (x - μ) / (σ + eps)) 0 := by
    unfold IsMean at hm ⊢
    rw [sum_map_affine, hm]
    simp
  refine ⟨hmean, ⟨by positivity, 0, hmean, ?_⟩, ?_, ?_⟩
  · rw [List.map_map]
    show (List.map (fun x => ((x - μ) / (σ + eps) - 0) ^ 2) (channel a f)).sum = _
    rw [sum_map_div_sq, hs, List.length_map]
    field_simp
  · rw [div_lt_one hpos]
    have := eps_pos
    linarith
  · intro h0 y hy
    obtain ⟨x, hx, rfl⟩ := List.mem_map.1 hy
    rw [h0] at hs
    have hz : ∀ z ∈ (channel a f).map (fun x => (x - μ) ^ 2), z = 0 := by
      have hnn : ∀ z ∈ (channel a f).map (fun x => (x - μ) ^ 2), (0 : ℝ) ≤ z := by
        intro z hz
        obtain ⟨w, -, rfl⟩ := List.mem_map.1 hz
        positivity
      have hsum : ((channel a f).map fun x => (x - μ) ^ 2).sum = 0 := by rw [hs]; ring
      intro z hz
      have := List.single_le_sum hnn z hz
      linarith [hnn z hz]
    have := hz _ (List.mem_map.2 ⟨x, hx, rfl⟩)
    have : x - μ = 0 := by simpa using this
    rw [this, zero_div]

/-- C82: the normalizer of a generator standardizes the sample of the generator that its statistics come
from, array by array, and it maps any other tree of the same structure with the same numbers. -/
theorem C82_normalizer {R : Rng K} {KEY KP : K} {gen : K → List Arr3} {size : Nat} {Xs : List Arr3}
    (hx : sample R KEY KP gen size = .ok Xs) :
    ∃ norm, make_normalizer_from_generator R KEY KP gen size = .ok norm ∧
      (∀ X, X.length ≠ Xs.length → norm X = .error .value) ∧
      ∀ X, X.length = Xs.length → ∃ Y, norm X = .ok Y ∧ Y.length = X.length ∧
        ∀ j < X.length, Y.getD j [] = normArr (mean (Xs.getD j [])) (std (Xs.getD j [])) (X.getD j []) := by
  unfold make_normalizer_from_generator
  rw [hx, ok_bind]
  refine ⟨_, rfl, fun X h => if_neg h, fun X h => ?_⟩
  refine ⟨_, if_pos h, ?_, ?_⟩
  · simp [h]
  · intro j hj
    have hj' : j < Xs.length := by omega
    rw [List.getD_eq_getElem?_getD, List.getElem?_eq_getElem (by simp; omega)]
    simp [List.getD_eq_getElem?_getD, List.getElem?_eq_getElem hj, List.getElem?_eq_getElem hj']

theorem allSeqs_mem {R : Rng K} {KEY : K} {gen : K → List Arr3} {n j : Nat} {s : List (List ℝ)}
    (h : s ∈ allSeqs R KEY gen n j) : ∃ k, s ∈ (gen k).getD j [] := by
  unfold allSeqs at h
  obtain ⟨l, hl, hs⟩ := List.mem_flatten.1 h
  obtain ⟨i, -, rfl⟩ := List.mem_map.1 hl
  exact ⟨_, hs⟩

/-- C82: for a generator of arrays with `T` time steps and `F j` features, the normalizer exists, and
there is a sample of as many sequences as asked for that it standardizes. If the number of sequences
drawn is the number asked for, the statistics are those of all sequences drawn, whatever the random
order. -/
theorem C82_standardized {R : Rng K} (hR : R.Ok) {KEY KP : K} {gen : K → List Arr3} {m bs T : Nat}
    {F : Nat → Nat} (hg : Batched gen m bs) (hm : 0 < m) (hbs : 0 < bs) (hT : 0 < T)
    (hrect : ∀ k, ∀ j < m, Rect ((gen k).getD j []) T (F j)) {size : Nat} (hs : 0 < size) :
    ∃ Xs norm Ys, sample R KEY KP gen size = .ok Xs ∧
      make_normalizer_from_generator R KEY KP gen size = .ok norm ∧ norm Xs = .ok Ys ∧
      ∀ j < m, (∀ f < F j, IsMean (channel (Ys.getD j []) f) 0 ∧
          ∃ σ, 0 ≤ σ ∧ IsStd (channel (Xs.getD j []) f) σ ∧
            IsStd (channel (Ys.getD j []) f) (σ / (σ + eps))) ∧
        ∀ n, n * bs = size → List.Perm (Xs.getD j []) (allSeqs R KEY gen n j) := by
  obtain ⟨n, Xs, order, h1, h2, h3, h4, h5, h6⟩ := C82_sample hR (KEY := KEY) (KP := KP) hg hm hbs hs
  obtain ⟨norm, e1, -, e2⟩ := C82_normalizer h1
  obtain ⟨Ys, e3, e4, e5⟩ := e2 Xs rfl
  refine ⟨Xs, norm, Ys, h1, e1, e3, fun j hj => ⟨fun f hf => ?_, fun n' hn' => ?_⟩⟩
  · obtain ⟨h7, h8⟩ := h6 j hj
    have hr : Rect (Xs.getD j []) T (F j) := by
      intro s hs'
      rw [h8] at hs'
      obtain ⟨i, hi, rfl⟩ := List.mem_map.1 hs'
      have hi : i < (allSeqs R KEY gen n j).length := by
        rw [allSeqs_length hg n j hj]
        exact List.mem_range.1 (h5.mem_iff.1 (List.mem_of_mem_take hi))
      rw [List.getD_eq_getElem?_getD, List.getElem?_eq_getElem hi, Option.getD_some]
      obtain ⟨k, hk⟩ := allSeqs_mem (List.getElem_mem hi)
      exact hrect k j hj _ hk
    have hne : Xs.getD j [] ≠ [] := by
      intro h
      rw [h] at h7
      simp at h7
      omega
    have hn := C82_normalized hr hne hT hf
    have hst := ((C82_statistics hr hne hT).2.2 f hf).2
    rw [e5 j (by omega)]
    exact ⟨hn.1, _, hst.1, hst, hn.2.1⟩
  · obtain ⟨h7, h8⟩ := h6 j hj
    have hnn : n = n' := by
      have h9 : (n - 1) * bs < n' * bs := by omega
      have h10 : n' * bs ≤ n * bs := by omega
      have := Nat.lt_of_mul_lt_mul_right h9
      have := Nat.le_of_mul_le_mul_right h10 hbs
      omega
    subst hnn
    rw [h8, List.take_of_length_le (by rw [h5.length_eq]; simp; omega)]
    have hl := allSeqs_length (R := R) (KEY := KEY) hg n j hj
    have : (allSeqs R KEY gen n j) =
        (List.range (n * bs)).map ((allSeqs R KEY gen n j).getD · []) := by
      apply List.ext_getElem
      · simp [hl]
      · intro i h9 h10
        simp [List.getD_eq_getElem?_getD, List.getElem?_eq_getElem h9]
    conv_rhs => rw [this]
    exact h5.map _

/-- C82: the normalizer loses nothing: larger values stay larger, and the input can be had back. -/
theorem C82_affine {m s : ℝ} (hs : 0 ≤ s) (x y : ℝ) :
    ((x - m) / (s + eps) < (y - m) / (s + eps) ↔ x < y) ∧ (x - m) / (s + eps) * (s + eps) + m = x := by
  have hpos : 0 < s + eps := add_pos_of_nonneg_of_pos hs eps_pos
  refine ⟨?_, by field_simp; ring⟩
  rw [div_lt_div_iff_of_pos_right hpos]
  constructor <;> intro h <;> linarith

/-- C82 fails to bring every feature to a unit scale: a feature that does not vary in the sample is
multiplied by `1e8`, so that a deviation of one millionth becomes one of 100. -/
theorem C82_constant_fails : ∃ (a : Arr3), Rect a 2 1 ∧ a ≠ [] ∧ (std a).getD 0 0 = 0 ∧
    normArr (mean a) (std a) [[[1 + 1e-6]]] = [[[100]]] := by
  refine ⟨[[[1], [1]]], ?_, by simp, ?_, ?_⟩
  · intro s hs
    simp at hs
    subst hs
    simp
  · norm_num [std, features, channel, avg]
  · norm_num [normArr, mean, std, features, channel, avg, eps]

/-! ### examples -/

/-- one array of three sequences, two time steps and one feature -/
def exBatch : List Arr3 := [[[[0], [1]], [[2], [3]], [[4], [5]]]]

example : Batched (fun _ : Nat => exBatch) 1 3 ∧ (∀ j < 1, Rect (exBatch.getD j []) 2 1) ∧
    (4 + 3 - 1) / 3 = 2 := by
  refine ⟨fun _ => ⟨rfl, ?_⟩, ?_, rfl⟩
  · intro a ha
    simp [exBatch] at ha
    subst ha
    rfl
  · intro j hj
    have : j = 0 := by omega
    subst this
    intro s hs
    simp [exBatch] at hs
    rcases hs with rfl | rfl | rfl <;> simp

end RingLib
