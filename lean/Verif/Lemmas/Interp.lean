import Verif.Lemmas.Random
import Verif.Spec.Random

/-!
# Interpolation between knots
-/

namespace RingLib
namespace random
open Real

theorem cos_twoPoint : TwoPoint cos_interpolate where
  zero a b := by simp [cos_interpolate]; ring
  one a b := by simp [cos_interpolate]; ring
  up a b hab x y hx hxy hy := by
    unfold cos_interpolate
    have : cos (y * π) ≤ cos (x * π) := by
      apply Real.cos_le_cos_of_nonneg_of_le_pi
      · positivity
      · nlinarith [Real.pi_pos]
      · nlinarith [Real.pi_pos]
    nlinarith
  down a b hab x y hx hxy hy := by
    unfold cos_interpolate
    have : cos (y * π) ≤ cos (x * π) := by
      apply Real.cos_le_cos_of_nonneg_of_le_pi
      · positivity
      · nlinarith [Real.pi_pos]
      · nlinarith [Real.pi_pos]
    nlinarith

theorem two_point_interp_twoPoint (m : InterpMethod) : TwoPoint (two_point_interp m) := by
  cases m
  · exact cos_twoPoint
  · constructor
    · intro a b; simp [two_point_interp]
    · intro a b; simp [two_point_interp]
    · intro a b hab x y hx hxy hy
      simp only [two_point_interp]
      nlinarith
    · intro a b hab x y hx hxy hy
      simp only [two_point_interp]
      nlinarith

/-- both interpolation functions, with the path `g` between two knots and the reparametrisation `w`
of each interval as parameters -/
noncomputable def interpWith (g : ℝ → ℝ → ℝ → ℝ) (w : Int → ℝ → ℝ) (x : ℝ) (xp fp : List ℝ) : ℝ :=
  let i := interval xp x
  let dx := jaxGet 0 xp i - jaxGet 0 xp (i - 1)
  let alpha := (x - jaxGet 0 xp (i - 1)) / dx
  let f := if dx = 0 then jaxGet 0 fp i
    else g (jaxGet 0 fp (i - 1)) (jaxGet 0 fp i) (w i alpha)
  if x > jaxGet 0 xp (-1) then jaxGet 0 fp (-1) else f

theorem cosInterpolate_eq (x : ℝ) (xp fp : List ℝ) :
    cosInterpolate x xp fp = interpWith cos_interpolate (fun _ a => a) x xp fp := rfl

/-- a single knot -/
theorem interpWith_one (g : ℝ → ℝ → ℝ → ℝ) (w : Int → ℝ → ℝ) (x a b : ℝ) :
    interpWith g w x [a] [b] = b := by
  have h1 : ∀ i : Int, jaxGet 0 [a] i = a := by
    intro i
    simpa using jaxGet_mem (0 : ℝ) [a] i (by simp)
  have h2 : ∀ i : Int, jaxGet 0 [b] i = b := by
    intro i
    simpa using jaxGet_mem (0 : ℝ) [b] i (by simp)
  unfold interpWith
  simp [h1, h2]

/-- The value between the two knots around the query point. -/
theorem interpWith_eq (g : ℝ → ℝ → ℝ → ℝ) (w : Int → ℝ → ℝ) (xp fp : List ℝ) (x : ℝ)
    (hs : xp.Pairwise (· < ·)) (hl : fp.length = xp.length) (j : Nat) (hj : j + 1 < xp.length)
    (h0 : xp[j] ≤ x) (h1 : x < xp[j + 1]) :
    interpWith g w x xp fp = g fp[j] fp[j + 1]
      (w (j + 1) ((x - xp[j]) / (xp[j + 1] - xp[j]))) := by
  have hs' : xp.Pairwise (· ≤ ·) := hs.imp le_of_lt
  obtain ⟨i, hi, hint, -, -, hu⟩ := interval_spec xp x hs' (by omega)
  have hij := hu j hj h0 h1
  subst hij
  have e : ((i + 1 : Nat) : Int) - 1 = (i : Nat) := by push_cast; ring
  unfold interpWith
  simp only [hint, e]
  rw [jaxGet_nat 0 xp (by omega), jaxGet_nat 0 xp (by omega), jaxGet_nat 0 fp (by omega),
    jaxGet_nat 0 fp (by omega), jaxGet_last 0 xp (by rintro rfl; simp at hj)]
  have hlt : xp[i] < xp[i + 1] := List.pairwise_iff_getElem.mp hs _ _ _ _ (by omega)
  rw [if_neg, if_neg (by linarith)]
  · push_cast; rfl
  · rw [List.getLast_eq_getElem, gt_iff_lt, not_lt]
    apply h1.le.trans
    rcases Nat.lt_or_ge (i + 1) (xp.length - 1) with h | h
    · exact List.pairwise_iff_getElem.mp hs' _ _ _ _ h
    · apply le_of_eq
      congr 1
      omega

theorem interpWith_after (g : ℝ → ℝ → ℝ → ℝ) (hg : TwoPoint g) (w : Int → ℝ → ℝ)
    (hw : ∀ i, w i 1 = 1) (xp fp : List ℝ) (x : ℝ) (hs : xp.Pairwise (· ≤ ·))
    (hl : fp.length = xp.length) (h0 : 0 < xp.length) (hx : xp[xp.length - 1] ≤ x) :
    interpWith g w x xp fp = fp[fp.length - 1] := by
  rcases Nat.lt_or_ge 1 xp.length with hl2 | hl2
  · rcases hx.lt_or_eq with hx | hx
    · unfold interpWith
      simp only
      rw [if_pos, jaxGet_last 0 fp (by rintro rfl; simp at hl; omega), List.getLast_eq_getElem]
      rw [jaxGet_last 0 xp (by rintro rfl; simp at h0), List.getLast_eq_getElem]
      exact hx
    · obtain ⟨i, hi, hint, -, hor, -⟩ := interval_spec xp x hs (by omega)
      have hi2 : i + 2 = xp.length := by
        rcases hor with h | h
        · exfalso
          rw [← hx] at h
          have : xp[i + 1] ≤ xp[xp.length - 1] := by
            rcases Nat.lt_or_ge (i + 1) (xp.length - 1) with h' | h'
            · exact List.pairwise_iff_getElem.mp hs _ _ _ _ h'
            · apply le_of_eq
              congr 1
              omega
          linarith
        · exact h
      have e : ((i + 1 : Nat) : Int) - 1 = (i : Nat) := by push_cast; ring
      have hxe : x = xp[i + 1] := by
        rw [← hx]
        congr 1
        omega
      unfold interpWith
      simp only [hint, e]
      rw [jaxGet_nat 0 xp (by omega), jaxGet_nat 0 xp (by omega), jaxGet_nat 0 fp (by omega),
        jaxGet_nat 0 fp (by omega), jaxGet_last 0 xp (by rintro rfl; simp at hi),
        List.getLast_eq_getElem, if_neg (by rw [gt_iff_lt, not_lt]; exact hx.ge)]
      have hlast : fp[fp.length - 1] = fp[i + 1] := by
        congr 1
        omega
      rw [hlast]
      split
      · rfl
      · rename_i hne
        have h1 : (x - xp[i]) / (xp[i + 1] - xp[i]) = 1 := by
          rw [← hxe] at hne ⊢
          exact div_self hne
        rw [h1, hw, hg.one]
  · obtain ⟨a, rfl⟩ := List.length_eq_one_iff.mp (show xp.length = 1 by omega)
    obtain ⟨b, rfl⟩ := List.length_eq_one_iff.mp (show fp.length = 1 by simpa using hl)
    rw [interpWith_one]
    rfl

/-- Interpolation along monotone paths, each interval reparametrised by a map of the unit interval,
hits the knots and never overshoots. -/
theorem interpWith_interpolates (g : ℝ → ℝ → ℝ → ℝ) (hg : TwoPoint g) (w : Int → ℝ → ℝ)
    (hw : ∀ i, UnitMap (w i)) (xp fp : List ℝ) (hs : xp.Pairwise (· < ·))
    (hl : fp.length = xp.length) : Interpolates xp fp (fun x => interpWith g w x xp fp) := by
  have hs' : xp.Pairwise (· ≤ ·) := hs.imp le_of_lt
  have hw1 : ∀ i, w i 1 = 1 := fun i => (hw i).one
  have hknot : ∀ k, ∀ h : k < xp.length, ∀ h' : k < fp.length,
      interpWith g w xp[k] xp fp = fp[k] := by
    intro k h h'
    rcases Nat.lt_or_ge (k + 1) xp.length with hk | hk
    · rw [interpWith_eq g w xp fp _ hs hl k hk le_rfl
        (List.pairwise_iff_getElem.mp hs _ _ _ _ (by omega)), sub_self, zero_div, (hw _).zero,
        hg.zero]
    · rw [interpWith_after g hg w hw1 xp fp _ hs' hl (by omega)]
      · congr 1; omega
      · apply le_of_eq; congr 1; omega
  -- the common form of a value in an interval
  have hval : ∀ k, ∀ h : k + 1 < xp.length, ∀ x, xp[k] ≤ x → x ≤ xp[k + 1] →
      interpWith g w x xp fp =
        g fp[k] fp[k + 1] (w (k + 1) ((x - xp[k]) / (xp[k + 1] - xp[k]))) := by
    intro k h x h0 h1
    have hlt : xp[k] < xp[k + 1] := List.pairwise_iff_getElem.mp hs _ _ _ _ (by omega)
    rcases h1.lt_or_eq with h1 | h1
    · exact interpWith_eq g w xp fp x hs hl k h h0 h1
    · rw [h1, hknot (k + 1) h (by omega), div_self (by linarith), (hw _).one, hg.one]
  have hpar : ∀ k, ∀ h : k + 1 < xp.length, ∀ x y, xp[k] ≤ x → x ≤ y → y ≤ xp[k + 1] →
      0 ≤ w (k + 1) ((x - xp[k]) / (xp[k + 1] - xp[k])) ∧
      w (k + 1) ((x - xp[k]) / (xp[k + 1] - xp[k])) ≤
        w (k + 1) ((y - xp[k]) / (xp[k + 1] - xp[k])) ∧
      w (k + 1) ((y - xp[k]) / (xp[k + 1] - xp[k])) ≤ 1 := by
    intro k h x y h0 hxy h1
    have hlt : xp[k] < xp[k + 1] := List.pairwise_iff_getElem.mp hs _ _ _ _ (by omega)
    have hpos : 0 < xp[k + 1] - xp[k] := by linarith
    have a0 : 0 ≤ (x - xp[k]) / (xp[k + 1] - xp[k]) := div_nonneg (by linarith) hpos.le
    have a1 : (y - xp[k]) / (xp[k + 1] - xp[k]) ≤ 1 := by rw [div_le_one hpos]; linarith
    have a2 : (x - xp[k]) / (xp[k + 1] - xp[k]) ≤ (y - xp[k]) / (xp[k + 1] - xp[k]) := by
      apply div_le_div_of_nonneg_right _ hpos.le
      linarith
    have hm := (hw (k + 1)).mono
    refine ⟨?_, hm ⟨a0, a2.trans a1⟩ ⟨a0.trans a2, a1⟩ a2, ?_⟩
    · have := hm ⟨le_rfl, zero_le_one⟩ ⟨a0, a2.trans a1⟩ a0
      rwa [(hw _).zero] at this
    · have := hm ⟨a0.trans a2, a1⟩ ⟨zero_le_one, le_rfl⟩ a1
      rwa [(hw _).one] at this
  constructor
  · exact hknot
  · intro k h h' hab x y h0 hxy h1
    rw [hval k h x h0 (hxy.trans h1), hval k h y (h0.trans hxy) h1]
    obtain ⟨p0, p1, p2⟩ := hpar k h x y h0 hxy h1
    exact hg.up _ _ hab _ _ p0 p1 p2
  · intro k h h' hab x y h0 hxy h1
    rw [hval k h x h0 (hxy.trans h1), hval k h y (h0.trans hxy) h1]
    obtain ⟨p0, p1, p2⟩ := hpar k h x y h0 hxy h1
    exact hg.down _ _ hab _ _ p0 p1 p2
  · intro k h h' x h0 h1
    rw [hval k h x h0 h1]
    obtain ⟨p0, -, p2⟩ := hpar k h x x h0 le_rfl h1
    rcases le_total fp[k] fp[k + 1] with hab | hab
    · rw [min_eq_left hab, max_eq_right hab]
      have q0 := hg.up _ _ hab _ _ le_rfl p0 p2
      have q1 := hg.up _ _ hab _ _ p0 p2 le_rfl
      rw [hg.zero] at q0
      rw [hg.one] at q1
      exact ⟨q0, q1⟩
    · rw [min_eq_right hab, max_eq_left hab]
      have q0 := hg.down _ _ hab _ _ le_rfl p0 p2
      have q1 := hg.down _ _ hab _ _ p0 p2 le_rfl
      rw [hg.zero] at q0
      rw [hg.one] at q1
      exact ⟨q1, q0⟩
  · intro h h' x hx
    exact interpWith_after g hg w hw1 xp fp x hs' hl h hx

/-- Also when several knots share a time: not before the first knot the value stays within any
bounds that hold for all knots. -/
theorem interpWith_bounds (g : ℝ → ℝ → ℝ → ℝ) (hg : TwoPoint g) (w : Int → ℝ → ℝ)
    (hw : ∀ i, UnitMap (w i)) (xp fp : List ℝ) (hs : xp.Pairwise (· ≤ ·))
    (hl : fp.length = xp.length) (h0 : 0 < xp.length) (x lo hi : ℝ) (hx : xp[0] ≤ x)
    (hb : ∀ y ∈ fp, lo ≤ y ∧ y ≤ hi) :
    lo ≤ interpWith g w x xp fp ∧ interpWith g w x xp fp ≤ hi := by
  rcases Nat.lt_or_ge 1 xp.length with hl2 | hl2
  · obtain ⟨i, hi', hint, hge, hor, -⟩ := interval_spec xp x hs (by omega)
    have hge := hge hx
    have e : ((i + 1 : Nat) : Int) - 1 = (i : Nat) := by push_cast; ring
    have hfp : fp ≠ [] := by rintro rfl; simp at hl; omega
    unfold interpWith
    simp only [hint, e]
    split
    · exact hb _ (jaxGet_mem _ _ _ hfp)
    · rename_i hgt
      split
      · exact hb _ (jaxGet_mem _ _ _ hfp)
      · rename_i hne
        have ba := hb _ (jaxGet_mem 0 fp (i : Nat) hfp)
        have bb := hb _ (jaxGet_mem 0 fp ((i + 1 : Nat) : Int) hfp)
        rw [jaxGet_nat 0 xp (by omega), jaxGet_nat 0 xp (by omega)] at hne ⊢
        rw [jaxGet_last 0 xp (by rintro rfl; simp at hi'), List.getLast_eq_getElem, gt_iff_lt,
          not_lt] at hgt
        have hle : xp[i] ≤ xp[i + 1] := List.pairwise_iff_getElem.mp hs _ _ _ _ (by omega)
        have hpos : 0 < xp[i + 1] - xp[i] := by
          rcases hle.lt_or_eq with h | h
          · linarith
          · exact absurd (by linarith) hne
        have hx1 : x ≤ xp[i + 1] := by
          rcases hor with h | h
          · exact h.le
          · apply hgt.trans (le_of_eq _)
            congr 1
            omega
        have a0 : 0 ≤ (x - xp[i]) / (xp[i + 1] - xp[i]) := div_nonneg (by linarith) hpos.le
        have a1 : (x - xp[i]) / (xp[i + 1] - xp[i]) ≤ 1 := by rw [div_le_one hpos]; linarith
        have hm := (hw ((i + 1 : Nat) : Int)).mono
        have p0 := hm ⟨le_rfl, zero_le_one⟩ ⟨a0, a1⟩ a0
        have p1 := hm ⟨a0, a1⟩ ⟨zero_le_one, le_rfl⟩ a1
        rw [(hw _).zero] at p0
        rw [(hw _).one] at p1
        rcases le_total (jaxGet 0 fp (i : Nat)) (jaxGet 0 fp ((i + 1 : Nat) : Int)) with hab | hab
        · have q0 := hg.up _ _ hab _ _ le_rfl p0 p1
          have q1 := hg.up _ _ hab _ _ p0 p1 le_rfl
          rw [hg.zero] at q0
          rw [hg.one] at q1
          exact ⟨ba.1.trans q0, q1.trans bb.2⟩
        · have q0 := hg.down _ _ hab _ _ le_rfl p0 p1
          have q1 := hg.down _ _ hab _ _ p0 p1 le_rfl
          rw [hg.zero] at q0
          rw [hg.one] at q1
          exact ⟨bb.1.trans q1, q0.trans ba.2⟩
  · obtain ⟨a, rfl⟩ := List.length_eq_one_iff.mp (show xp.length = 1 by omega)
    obtain ⟨b, rfl⟩ := List.length_eq_one_iff.mp (show fp.length = 1 by simpa using hl)
    rw [interpWith_one]
    exact hb b (by simp)

/-! ## the reparametrisation -/

theorem cumsum_length {β : Type} [Add β] [Zero β] (l : List β) : (cumsum l).length = l.length := by
  simp [cumsum]

theorem cumsum_getElem (l : List ℝ) (i : Nat) (h : i < (cumsum l).length) :
    (cumsum l)[i] = (l.take (i + 1)).sum := by
  simp [cumsum, List.sum_eq_foldl]

/-- a table of values rising from 0 to 1 -/
structure IsCdf (cdf : List ℝ) : Prop where
  two : 2 ≤ cdf.length
  first : ∀ h : 0 < cdf.length, cdf[0] = 0
  last : ∀ h : cdf.length - 1 < cdf.length, cdf[cdf.length - 1] = 1
  rising : cdf.Pairwise (· < ·)

theorem take_sum_pos (ds : List ℝ) (hpos : ∀ d ∈ ds, 0 < d) (i j : Nat) (hij : i < j)
    (hj : j ≤ ds.length) : (ds.take i).sum < (ds.take j).sum := by
  induction j with
  | zero => omega
  | succ j ih =>
    have h1 : (ds.take j).sum < (ds.take (j + 1)).sum := by
      rw [List.sum_take_succ _ _ (by omega)]
      have := hpos _ (List.getElem_mem (show j < ds.length by omega))
      linarith
    rcases Nat.lt_or_ge i j with h | h
    · exact (ih h (by omega)).trans h1
    · have : i = j := by omega
      rw [this]
      exact h1

theorem normalised_cumsum_isCdf (ds : List ℝ) (hne : ds ≠ []) (hpos : ∀ d ∈ ds, 0 < d) :
    IsCdf (normalised_cumsum (0 :: ds)) := by
  have hl : 0 < ds.length := List.length_pos_iff.mpr hne
  have hlen : (normalised_cumsum (0 :: ds)).length = ds.length + 1 := by
    simp [normalised_cumsum, cumsum_length]
  have hne' : cumsum (0 :: ds) ≠ [] := by
    intro h
    have := congrArg List.length h
    rw [cumsum_length] at this
    simp at this
  have hlast : jaxGet 0 (cumsum (0 :: ds)) (-1) = (ds.take ds.length).sum := by
    rw [jaxGet_last _ _ hne', List.getLast_eq_getElem, cumsum_getElem, cumsum_length]
    simp
  have hget : ∀ i, ∀ h : i < (normalised_cumsum (0 :: ds)).length,
      (normalised_cumsum (0 :: ds))[i] = (ds.take i).sum / (ds.take ds.length).sum := by
    intro i h
    simp only [normalised_cumsum, List.getElem_map, hlast, cumsum_getElem]
    simp
  have hS : 0 < (ds.take ds.length).sum := by
    have := take_sum_pos ds hpos 0 ds.length hl le_rfl
    simpa using this
  constructor
  · omega
  · intro h
    rw [hget]
    simp
  · intro h
    rw [hget, hlen]
    exact div_self hS.ne'
  · rw [List.pairwise_iff_getElem]
    intro i j hi hj hij
    rw [hget, hget]
    exact div_lt_div_of_pos_right (take_sum_pos ds hpos i j hij (by omega)) hS

theorem biject_eq (cdf : List ℝ) (n : Nat) (hn : cdf.length = n + 1) (l : Nat) (hl : l < n)
    (a : ℝ) (h0 : 0 ≤ a) (h1 : a < 1) :
    _biject_alpha ((l + a) / n) cdf = (1 - a) * cdf[l] + a * cdf[l + 1] := by
  have hn0 : (0 : ℝ) < n := by exact_mod_cast (show 0 < n by omega)
  unfold _biject_alpha
  have e1 : (1 : ℝ) / ((cdf.length : ℝ) - 1) = 1 / n := by rw [hn]; push_cast; ring_nf
  have e2 : ((l : ℝ) + a) / n / (1 / n) = l + a := by field_simp
  have e3 : ⌊(l : ℝ) + a⌋ = (l : Int) := by
    rw [Int.floor_eq_iff]
    push_cast
    constructor <;> linarith
  simp only [e1, e2, e3]
  have e4 : (((l : ℝ) + a) / n - ((l : Int) : ℝ) * (1 / n)) / (1 / n) = a := by
    push_cast
    field_simp
    ring
  have e5 : ((l : Int) + 1) = ((l + 1 : Nat) : Int) := by push_cast; ring
  rw [e4, e5, jaxGet_nat 0 cdf (by omega), jaxGet_nat 0 cdf (by omega)]

theorem biject_one (cdf : List ℝ) (h : IsCdf cdf) : _biject_alpha 1 cdf = 1 := by
  have h2 := h.two
  obtain ⟨n, hn⟩ : ∃ n, cdf.length = n + 1 := ⟨cdf.length - 1, by omega⟩
  have hn0 : (0 : ℝ) < n := by exact_mod_cast (show 0 < n by omega)
  unfold _biject_alpha
  have e1 : (1 : ℝ) / ((cdf.length : ℝ) - 1) = 1 / n := by rw [hn]; push_cast; ring_nf
  have e2 : (1 : ℝ) / (1 / n) = n := by field_simp
  have e3 : ⌊(n : ℝ)⌋ = (n : Int) := by simp
  simp only [e1, e2, e3]
  have e4 : ((1 : ℝ) - ((n : Int) : ℝ) * (1 / n)) / (1 / n) = 0 := by
    push_cast
    field_simp
    ring
  rw [e4, jaxGet_nat 0 cdf (by omega)]
  have := h.last (by omega)
  have e5 : cdf[n] = cdf[cdf.length - 1] := by congr 1; omega
  rw [e5, this]
  ring

/-- The reparametrisation is a non-decreasing map of the unit interval onto itself. -/
theorem biject_unitMap (cdf : List ℝ) (h : IsCdf cdf) :
    UnitMap (fun alpha => _biject_alpha alpha cdf) := by
  have h2 := h.two
  obtain ⟨n, hn⟩ : ∃ n, cdf.length = n + 1 := ⟨cdf.length - 1, by omega⟩
  have hn0 : (0 : ℝ) < n := by exact_mod_cast (show 0 < n by omega)
  have hlt : ∀ i j, ∀ hi : i < cdf.length, ∀ hj : j < cdf.length, i < j → cdf[i] < cdf[j] :=
    fun i j hi hj => List.pairwise_iff_getElem.mp h.rising i j hi hj
  have hle : ∀ i j, ∀ hi : i < cdf.length, ∀ hj : j < cdf.length, i ≤ j → cdf[i] ≤ cdf[j] := by
    intro i j hi hj hij
    rcases hij.lt_or_eq with h | h
    · exact (hlt i j hi hj h).le
    · subst h; exact le_rfl
  have hdec : ∀ x : ℝ, 0 ≤ x → x < 1 → ∃ l : Nat, l < n ∧ ∃ a : ℝ, 0 ≤ a ∧ a < 1 ∧
      x = (l + a) / n ∧ (l : ℝ) ≤ x * n := by
    intro x hx0 hx1
    have h1 : 0 ≤ x * n := by positivity
    have hf := Nat.floor_le h1
    have hf2 := Nat.lt_floor_add_one (x * n)
    refine ⟨⌊x * n⌋₊, ?_, x * n - ⌊x * n⌋₊, by linarith, by linarith, ?_, hf⟩
    · rw [Nat.floor_lt h1]
      nlinarith
    · field_simp
      ring
  have hval : ∀ l : Nat, ∀ hl : l < n, ∀ a : ℝ, 0 ≤ a → a < 1 →
      cdf[l] ≤ (1 - a) * cdf[l] + a * cdf[l + 1] ∧
      (1 - a) * cdf[l] + a * cdf[l + 1] ≤ cdf[l + 1] := by
    intro l hl a h0 h1
    have := hlt l (l + 1) (by omega) (by omega) (by omega)
    constructor <;> nlinarith
  constructor
  · have := biject_eq cdf n hn 0 (by omega) 0 le_rfl one_pos
    simp only [Nat.cast_zero, add_zero, zero_div] at this
    show _biject_alpha 0 cdf = 0
    rw [this, h.first (by omega)]
    ring
  · exact biject_one cdf h
  · intro x hx y hy hxy
    show _biject_alpha x cdf ≤ _biject_alpha y cdf
    rcases hy.2.lt_or_eq with hy1 | hy1
    · obtain ⟨l, hl, a, a0, a1, hxe, hlx⟩ := hdec x hx.1 (lt_of_le_of_lt hxy hy1)
      obtain ⟨m, hm, b, b0, b1, hye, hmy⟩ := hdec y hy.1 hy1
      have hlm : (l : ℝ) + a ≤ m + b := by
        have : ((l : ℝ) + a) / n ≤ (m + b) / n := by rw [← hxe, ← hye]; exact hxy
        rwa [div_le_div_iff_of_pos_right hn0] at this
      rw [hxe, hye, biject_eq cdf n hn l hl a a0 a1, biject_eq cdf n hn m hm b b0 b1]
      rcases lt_trichotomy l m with hlt' | heq | hgt
      · exact (hval l hl a a0 a1).2.trans
          ((hle (l + 1) m (by omega) (by omega) (by omega)).trans (hval m hm b b0 b1).1)
      · subst heq
        have := hlt l (l + 1) (by omega) (by omega) (by omega)
        have : a ≤ b := by linarith
        nlinarith
      · exfalso
        have : (m : ℝ) + 1 ≤ l := by exact_mod_cast hgt
        linarith
    · rw [hy1, biject_one cdf h]
      rcases hx.2.lt_or_eq with hx1 | hx1
      · obtain ⟨l, hl, a, a0, a1, hxe, -⟩ := hdec x hx.1 hx1
        rw [hxe, biject_eq cdf n hn l hl a a0 a1]
        refine (hval l hl a a0 a1).2.trans ?_
        rw [← h.last (by omega)]
        exact hle _ _ _ _ (by omega)
      · rw [hx1, biject_one cdf h]
  · intro y hy
    rcases hy.2.lt_or_eq with hy1 | hy1
    · -- the segment holding `y`
      have hex : ∃ l, ∃ hl : l < cdf.length, y < cdf[l] :=
        ⟨cdf.length - 1, by omega, by rw [h.last (by omega)]; exact hy1⟩
      classical
      obtain ⟨hl, hyl⟩ := Nat.find_spec hex
      have hmin := fun k (hk : k < Nat.find hex) => Nat.find_min hex hk
      have hpos : 0 < Nat.find hex := by
        rcases Nat.eq_zero_or_pos (Nat.find hex) with h' | h'
        · exfalso
          simp only [h'] at hyl
          rw [h.first (by omega)] at hyl
          linarith [hy.1]
        · exact h'
      obtain ⟨l, hle'⟩ : ∃ l, Nat.find hex = l + 1 := ⟨Nat.find hex - 1, by omega⟩
      simp only [hle'] at hyl hl hmin
      have hcl : cdf[l] ≤ y := by
        have := hmin l (by omega)
        push Not at this
        exact this (by omega)
      have hd : 0 < cdf[l + 1] - cdf[l] := by linarith
      have a0 : 0 ≤ (y - cdf[l]) / (cdf[l + 1] - cdf[l]) := div_nonneg (by linarith) hd.le
      have a1 : (y - cdf[l]) / (cdf[l + 1] - cdf[l]) < 1 := by rw [div_lt_one hd]; linarith
      refine ⟨(l + (y - cdf[l]) / (cdf[l + 1] - cdf[l])) / n, ⟨by positivity, ?_⟩, ?_⟩
      · rw [div_le_one hn0]
        have : (l : ℝ) + 1 ≤ n := by exact_mod_cast (show l + 1 ≤ n by omega)
        linarith
      · show _biject_alpha _ cdf = y
        rw [biject_eq cdf n hn l (by omega) _ a0 a1]
        field_simp
        ring
    · exact ⟨1, ⟨zero_le_one, le_rfl⟩, by rw [hy1]; exact biject_one cdf h⟩

theorem generate_cdf_isCdf {K : Type} (R : Rng K) (n : Nat) (m : Option Nat)
    (hn : 1 ≤ n) (hm : ∀ k ∈ m, n ≤ k) (key : K) :
    ∃ cdf, _generate_cdf R n m key = some cdf ∧ IsCdf cdf := by
  have hs : ∀ u, (0 : ℝ) < scaleU u 1e-6 1 := fun u =>
    lt_of_lt_of_le (by norm_num) (scaleU_ge u 1e-6 1)
  cases m with
  | none =>
    refine ⟨_, rfl, normalised_cumsum_isCdf _ ?_ ?_⟩
    · intro h
      have := congrArg List.length h
      simp at this
      omega
    · intro d hd
      rw [List.mem_map] at hd
      obtain ⟨j, -, rfl⟩ := hd
      exact hs _
  | some k =>
    have hk : n ≤ k := hm k rfl
    simp only [_generate_cdf]
    rw [if_neg (show ¬ k < n by omega)]
    refine ⟨_, rfl, normalised_cumsum_isCdf _ ?_ ?_⟩
    · intro h
      have := congrArg List.length h
      simp [cumsum_length] at this
      omega
    · intro d hd
      rw [List.mem_map] at hd
      obtain ⟨c, -, rfl⟩ := hd
      have hmem := jaxGet_mem (0 : ℝ) ((List.range k).map fun j =>
        scaleU (R.uniformN (R.split (R.split key 2 0) 2 0) k j) 1e-6 1) ((c : Int) - 1) (by
          intro h
          have := congrArg List.length h
          simp at this
          omega)
      rw [List.mem_map] at hmem
      obtain ⟨j, -, hj⟩ := hmem
      rw [← hj]
      exact hs _

/-- The randomised interpolation is interpolation with a reparametrised interval. -/
theorem interpolate_eq {K : Type} (R : Rng K) (n : Nat) (m : Option Nat) (hn : 1 ≤ n)
    (hm : ∀ k ∈ m, n ≤ k) (method : InterpMethod) (xp fp : List ℝ) (key : K) :
    ∃ w : Int → ℝ → ℝ, (∀ i, UnitMap (w i)) ∧
      ∀ x, interpolate R n m method x xp fp key =
        some (interpWith (two_point_interp method) w x xp fp) := by
  choose cdf hcdf hok using generate_cdf_isCdf R n m hn hm
  refine ⟨fun i alpha => _biject_alpha alpha
    (cdf (R.split key (xp.length + 1) (jaxIdx xp.length (i - 1) + 1))),
    fun i => biject_unitMap _ (hok _), ?_⟩
  intro x
  unfold interpolate
  simp only [hcdf]
  rfl

end random
end RingLib
