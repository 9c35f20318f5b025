import Mathlib.Data.List.Chain
import Verif.Lemmas.Interp

/-!
# The loop that draws knots into a buffer of fixed size
-/

namespace RingLib
namespace random
open Real

/-- the row written for a knot -/
noncomputable def knotRow (Ts : ℝ) (k : ℝ × ℝ) : ℝ × ℝ := (floorTo k.1 Ts, k.2)

/-- the buffer of `L` rows after writing `rows` one after the other -/
def bufOf (L : Nat) (rows : List (ℝ × ℝ)) : List (ℝ × ℝ) :=
  (List.range L).map fun k => if k + 1 < L then rows.getD k (0, 0)
    else if L ≤ rows.length then rows.getLast?.getD (0, 0) else (0, 0)

/-- what is handed to the interpolation: row `k` of the buffer is knot `k`, or the last knot if there
is no knot `k`; the last row is always the last knot -/
def layout (L : Nat) (rows : List (ℝ × ℝ)) : List (ℝ × ℝ) :=
  (List.range L).map fun k => if k + 1 < L then rows.getD k (rows.getLast?.getD (0, 0))
    else rows.getLast?.getD (0, 0)

theorem bufOf_length (L : Nat) (rows : List (ℝ × ℝ)) : (bufOf L rows).length = L := by
  simp [bufOf]

theorem layout_length (L : Nat) (rows : List (ℝ × ℝ)) : (layout L rows).length = L := by
  simp [layout]

theorem bufOf_start (L : Nat) (x0 : ℝ) :
    (List.replicate (L + 1) ((0, 0) : ℝ × ℝ)).set 0 (0, x0) = bufOf (L + 1) [(0, x0)] := by
  apply List.ext_getElem
  · simp [bufOf]
  · intro k h1 h2
    simp only [List.length_set, List.length_replicate] at h1
    rw [List.getElem_set]
    simp only [bufOf, List.getElem_map, List.getElem_range, List.getElem_replicate]
    by_cases hk : k = 0
    · subst hk
      by_cases hL : L = 0
      · subst hL; simp
      · simp [show 0 < L by omega]
    · rw [if_neg (by omega)]
      obtain ⟨j, rfl⟩ : ∃ j, k = j + 1 := ⟨k - 1, by omega⟩
      by_cases h : j + 1 < L
      · simp [h]
      · rw [if_neg (by omega), if_neg (by simp; omega)]

theorem bufOf_write (L : Nat) (rows : List (ℝ × ℝ)) (r : ℝ × ℝ) (hL : 0 < L)
    (hr : 0 < rows.length) :
    jaxSet (bufOf L rows) rows.length r = bufOf L (rows ++ [r]) := by
  unfold jaxSet
  rw [bufOf_length]
  apply List.ext_getElem
  · simp [bufOf]
  · intro k h1 h2
    rw [bufOf_length] at h2
    rw [List.getElem_set]
    simp only [bufOf, List.getElem_map, List.getElem_range]
    by_cases hk : k + 1 < L
    · rw [if_pos hk, if_pos hk]
      by_cases he : min rows.length (L - 1) = k
      · rw [if_pos he]
        have : rows.length = k := by omega
        rw [List.getD_eq_getElem?_getD, List.getElem?_append_right (by omega)]
        simp [this]
      · rw [if_neg he, List.getD_eq_getElem?_getD, List.getD_eq_getElem?_getD]
        rcases Nat.lt_or_ge k rows.length with h | h
        · rw [List.getElem?_append_left h]
        · rw [List.getElem?_eq_none (by omega), List.getElem?_eq_none (by simp; omega)]
    · rw [if_neg hk, if_neg hk]
      have hk : k = L - 1 := by omega
      subst hk
      by_cases h : min rows.length (L - 1) = L - 1
      · rw [if_pos h, if_pos (by simp; omega)]
        simp
      · rw [if_neg h, if_neg (by omega), if_neg (by simp; omega)]

theorem fill_rest_bufOf (L : Nat) (rows : List (ℝ × ℝ)) (hL : 0 < L) (hr : 0 < rows.length) :
    fill_rest (bufOf L rows) rows.length = layout L rows := by
  have hlast : rows.getLast?.getD (0, 0) = rows[rows.length - 1] := by
    rw [List.getLast?_eq_getElem?, List.getElem?_eq_getElem (by omega)]
    rfl
  unfold fill_rest
  apply List.ext_getElem
  · simp [bufOf_length, layout_length]
  · intro k h1 h2
    rw [layout_length] at h2
    rw [List.getElem_mapIdx]
    by_cases hk : k < rows.length
    · rw [if_pos hk]
      simp only [bufOf, layout, List.getElem_map, List.getElem_range]
      by_cases hk2 : k + 1 < L
      · rw [if_pos hk2, if_pos hk2, List.getD_eq_getElem?_getD, List.getD_eq_getElem?_getD,
          List.getElem?_eq_getElem hk]
        rfl
      · rw [if_neg hk2, if_neg hk2, if_pos (by omega)]
    · rw [if_neg hk]
      have e : ((rows.length : Int) - 1) = ((rows.length - 1 : Nat) : Int) := by omega
      rw [e, jaxGet_nat _ _ (by rw [bufOf_length]; omega)]
      simp only [bufOf, layout, List.getElem_map, List.getElem_range]
      rw [if_pos (by omega), List.getD_eq_getElem?_getD, List.getElem?_eq_getElem (by omega),
        Option.getD_some, hlast]
      split
      · rw [List.getD_eq_getElem?_getD, List.getElem?_eq_none (by omega)]
        rfl
      · rfl

/-- The loop ends, and the buffer holds the knots it has drawn. -/
theorem knot_loop {σ : Type} (body : σ → σ) (ti : σ → ℝ) (ii : σ → Nat) (xi : σ → ℝ)
    (bi : σ → List (ℝ × ℝ)) (I : σ → Prop) (Q : ℝ × ℝ → ℝ × ℝ → Prop) (T t_min Ts x0 : ℝ)
    (L : Nat) (hL : 0 < L) (ht : 0 < t_min) (hT : 0 ≤ T) (hQ : ∀ a b, Q a b → a.1 + t_min ≤ b.1)
    (s0 : σ) (h0 : I s0) (hi0 : ii s0 = 1) (ht0 : ti s0 = 0) (hx0 : xi s0 = x0)
    (hb0 : bi s0 = bufOf L [(0, x0)])
    (hstep : ∀ s, I s → ti s ≤ T → I (body s) ∧ Q (ti s, xi s) (ti (body s), xi (body s)) ∧
      ii (body s) = ii s + 1 ∧
      bi (body s) = jaxSet (bi s) (ii s) (floorTo (ti (body s)) Ts, xi (body s))) :
    ∃ s' kn, whileLoop (fun s => ti s ≤ T) body s0 = some s' ∧ I s' ∧ IsKnots Q x0 T kn ∧
      kn.getLast? = some (ti s', xi s') ∧
      fill_rest (bi s') (ii s') = layout L (kn.map (knotRow Ts)) := by
  have hend : ∃ s', whileLoop (fun s => ti s ≤ T) body s0 = some s' := by
    refine whileLoop_ends I ti T t_min ht h0 ?_ ?_ ?_
    · intro s hc hI
      exact (hstep s hI hc).1
    · intro s hc hI
      exact hQ _ _ (hstep s hI hc).2.1
    · intro s _ hc
      exact hc
  obtain ⟨s', hs'⟩ := hend
  have hinv := whileLoop_inv (fun s => I s ∧ ∃ kn : List (ℝ × ℝ), kn.head? = some (0, x0) ∧
    kn.IsChain Q ∧ (∀ k ∈ kn.dropLast, k.1 ≤ T) ∧ kn.getLast? = some (ti s, xi s) ∧
    ii s = kn.length ∧ bi s = bufOf L (kn.map (knotRow Ts))) hs' ?_ ?_
  · obtain ⟨⟨hI, kn, k1, k2, k3, k4, k5, k6⟩, hc⟩ := hinv
    refine ⟨s', kn, hs', hI, ⟨k1, k2, k3, ?_⟩, k4, ?_⟩
    · intro k hk
      rw [k4] at hk
      cases hk
      simpa using hc
    · have hlen : 0 < kn.length := by
        cases kn with
        | nil => simp at k1
        | cons => simp
      have := fill_rest_bufOf L (kn.map (knotRow Ts)) hL (by simpa using hlen)
      rw [List.length_map] at this
      rw [k6, k5, this]
  · refine ⟨h0, [(0, x0)], rfl, by simp, by simp, by simp [ht0, hx0], by simp [hi0], ?_⟩
    rw [hb0]
    simp [knotRow, floorTo]
  · rintro s hc ⟨hI, kn, k1, k2, k3, k4, k5, k6⟩
    obtain ⟨e1, e2, e3, e4⟩ := hstep s hI hc
    have hlen : 0 < kn.length := by
      cases kn with
      | nil => simp at k1
      | cons => simp
    refine ⟨e1, kn ++ [(ti (body s), xi (body s))], ?_, ?_, ?_, ?_, ?_, ?_⟩
    · rw [List.head?_append, k1]
      rfl
    · rw [List.isChain_append]
      refine ⟨k2, by simp, ?_⟩
      intro a ha b hb
      rw [k4] at ha
      cases ha
      simp only [List.head?_cons, Option.mem_some_iff] at hb
      subst hb
      exact e2
    · rw [List.dropLast_concat]
      intro k hk
      have hsplit := List.dropLast_append_getLast? _ k4
      rw [← hsplit, List.mem_append] at hk
      rcases hk with hk | hk
      · exact k3 k hk
      · simp only [List.mem_singleton] at hk
        subst hk
        exact hc
    · simp
    · rw [e3, k5]
      simp
    · rw [e4, k6, k5]
      have := bufOf_write L (kn.map (knotRow Ts)) (floorTo (ti (body s)) Ts, xi (body s)) hL
        (by simpa using hlen)
      rw [List.length_map] at this
      rw [this]
      simp [knotRow]

/-! ## consequences -/

variable {Q : ℝ × ℝ → ℝ × ℝ → Prop} {x0 T t_min : ℝ} {kn : List (ℝ × ℝ)}

theorem IsKnots.two_le (h : IsKnots Q x0 T kn) (hT : 0 ≤ T) : 2 ≤ kn.length := by
  match kn, h with
  | [], h => simpa using h.start
  | [a], h =>
    have h1 := h.start
    have h2 := h.beyond a (by simp)
    simp at h1
    subst h1
    simp at h2
    linarith
  | a :: b :: l, _ => simp

/-- knot `k` comes no earlier than `k * t_min` -/
theorem IsKnots.time_ge (h : IsKnots Q x0 T kn) (hQ : ∀ a b, Q a b → a.1 + t_min ≤ b.1) (k : Nat)
    (hk : k < kn.length) : k * t_min ≤ kn[k].1 := by
  induction k with
  | zero =>
    have := h.start
    rw [List.head?_eq_getElem?, List.getElem?_eq_getElem hk] at this
    rw [Option.some.inj this]
    simp
  | succ k ih =>
    have h1 := ih (by omega)
    have h2 := hQ _ _ (List.isChain_iff_getElem.mp h.chain k hk)
    push_cast
    linarith

/-- There are at most `⌊T / t_min⌋ + 2` knots. -/
theorem IsKnots.length_le (h : IsKnots Q x0 T kn) (hQ : ∀ a b, Q a b → a.1 + t_min ≤ b.1)
    (ht : 0 < t_min) (hT : 0 ≤ T) : kn.length ≤ ⌊T / t_min⌋.toNat + 2 := by
  have h2 := IsKnots.two_le h hT
  have hin := h.inside kn[kn.length - 2] (by
    rw [List.mem_iff_getElem]
    exact ⟨kn.length - 2, by simp; omega, by simp⟩)
  have hge := IsKnots.time_ge h hQ (kn.length - 2) (by omega)
  have : ((kn.length - 2 : Nat) : ℝ) ≤ T / t_min := by
    rw [le_div_iff₀ ht]
    linarith
  have h3 : ((kn.length - 2 : Nat) : Int) ≤ ⌊T / t_min⌋ := by
    rw [Int.le_floor]
    exact_mod_cast this
  omega

theorem floorTo_mono {Ts : ℝ} (hTs : 0 < Ts) {a b : ℝ} (h : a ≤ b) : floorTo a Ts ≤ floorTo b Ts := by
  unfold floorTo
  apply mul_le_mul_of_nonneg_right _ hTs.le
  exact_mod_cast Int.floor_le_floor (div_le_div_of_nonneg_right h hTs.le)

theorem floorTo_lt {Ts : ℝ} (hTs : 0 < Ts) {a b : ℝ} (h : a + Ts ≤ b) :
    floorTo a Ts < floorTo b Ts := by
  unfold floorTo
  apply mul_lt_mul_of_pos_right _ hTs
  have : ⌊a / Ts⌋ + 1 ≤ ⌊b / Ts⌋ := by
    rw [Int.le_floor]
    push_cast
    have h1 := Int.floor_le (a / Ts)
    have h2 : (a + Ts) / Ts ≤ b / Ts := div_le_div_of_nonneg_right h hTs.le
    have h3 : (a + Ts) / Ts = a / Ts + 1 := by field_simp
    linarith
  exact_mod_cast this

theorem le_floorTo {Ts : ℝ} (hTs : 0 < Ts) {t : ℝ} (k : Nat) (h : k * Ts ≤ t) :
    k * Ts ≤ floorTo t Ts := by
  unfold floorTo
  apply mul_le_mul_of_nonneg_right _ hTs.le
  have : (k : Int) ≤ ⌊t / Ts⌋ := by
    rw [Int.le_floor, le_div_iff₀ hTs]
    exact_mod_cast h
  exact_mod_cast this

theorem IsKnots.pairwise (h : IsKnots Q x0 T kn) (hQ : ∀ a b, Q a b → a.1 + t_min ≤ b.1)
    (ht : 0 < t_min) : kn.Pairwise (fun a b => a.1 + t_min ≤ b.1) := by
  have hc : kn.IsChain (fun a b : ℝ × ℝ => a.1 + t_min ≤ b.1) := h.chain.imp hQ
  haveI : Trans (fun a b : ℝ × ℝ => a.1 + t_min ≤ b.1) (fun a b : ℝ × ℝ => a.1 + t_min ≤ b.1)
    (fun a b : ℝ × ℝ => a.1 + t_min ≤ b.1) := ⟨fun {a b c} h1 h2 => by
      have h1 : a.1 + t_min ≤ b.1 := h1
      have h2 : b.1 + t_min ≤ c.1 := h2
      show a.1 + t_min ≤ c.1
      linarith⟩
  exact List.isChain_iff_pairwise.mp hc

/-- the rows of the buffer, as knots -/
theorem layout_getElem (L : Nat) (Ts : ℝ) (kn : List (ℝ × ℝ)) (hl : 0 < kn.length) (k : Nat)
    (hk : k < (layout L (kn.map (knotRow Ts))).length) :
    ∃ j, ∃ hj : j < kn.length, (layout L (kn.map (knotRow Ts)))[k] = knotRow Ts kn[j] ∧
      j = if k + 1 < L then min k (kn.length - 1) else kn.length - 1 := by
  rw [layout_length] at hk
  have hlast : (kn.map (knotRow Ts)).getLast?.getD (0, 0) = knotRow Ts kn[kn.length - 1] := by
    rw [List.getLast?_eq_getElem?, List.length_map, List.getElem?_map,
      List.getElem?_eq_getElem (by omega)]
    rfl
  simp only [layout, List.getElem_map, List.getElem_range]
  by_cases h : k + 1 < L
  · rw [if_pos h]
    rcases Nat.lt_or_ge k kn.length with h' | h'
    · refine ⟨k, h', ?_, by rw [if_pos h]; omega⟩
      rw [List.getD_eq_getElem?_getD, List.getElem?_map, List.getElem?_eq_getElem h']
      rfl
    · refine ⟨kn.length - 1, by omega, ?_, by rw [if_pos h]; omega⟩
      rw [List.getD_eq_getElem?_getD, List.getElem?_map, List.getElem?_eq_none h']
      exact hlast
  · rw [if_neg h]
    exact ⟨kn.length - 1, by omega, hlast, by rw [if_neg h]⟩

theorem layout_sorted (h : IsKnots Q x0 T kn) (hQ : ∀ a b, Q a b → a.1 + t_min ≤ b.1)
    (ht : 0 < t_min) (hT : 0 ≤ T) {Ts : ℝ} (hTs : 0 < Ts) (L : Nat) :
    ((layout L (kn.map (knotRow Ts))).map (·.1)).Pairwise (· ≤ ·) := by
  have h2 := IsKnots.two_le h hT
  have hp := IsKnots.pairwise h hQ ht
  rw [List.pairwise_map, List.pairwise_iff_getElem]
  intro a b ha hb hab
  obtain ⟨i, hi, ei, hi'⟩ := layout_getElem L Ts kn (by omega) a ha
  obtain ⟨j, hj, ej, hj'⟩ := layout_getElem L Ts kn (by omega) b hb
  rw [ei, ej]
  rw [layout_length] at ha hb
  have hij : i ≤ j := by
    rw [hi', hj']
    split_ifs <;> omega
  apply floorTo_mono hTs
  rcases hij.lt_or_eq with h' | h'
  · have := List.pairwise_iff_getElem.mp hp i j hi hj h'
    linarith
  · subst h'; exact le_rfl

/-- values of the knots, whatever was lost -/
theorem layout_mem {L : Nat} {Ts : ℝ} {y : ℝ} (hl : 0 < kn.length)
    (hy : y ∈ (layout L (kn.map (knotRow Ts))).map (·.2)) : ∃ k ∈ kn, y = k.2 := by
  rw [List.mem_map] at hy
  obtain ⟨r, hr, rfl⟩ := hy
  rw [List.mem_iff_getElem] at hr
  obtain ⟨k, hk, rfl⟩ := hr
  obtain ⟨j, hj, e, -⟩ := layout_getElem L Ts kn hl k hk
  exact ⟨kn[j], List.getElem_mem _, by rw [e]; rfl⟩

end random
end RingLib
