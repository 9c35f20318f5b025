import Verif.Model.Sensors
import Verif.Props.Sizes
import Mathlib.Data.List.GetD
import Mathlib.Data.List.Rotate
import Mathlib.Algebra.BigOperators.Group.Finset.Basic
import Mathlib.Algebra.BigOperators.Module
import Mathlib.Algebra.BigOperators.Intervals

/-!
# Smoothing and delaying IMU signals (C36)
-/

namespace RingLib.sensors
open System

variable {V : Type} [AddCommGroup V] [Module ℝ V]

/-! ## Specification -/

/-- sample `i`, where the signal is continued by its first and last sample -/
noncomputable def edge (arr : List V) (i : Int) : V :=
  arr.getD (min (max i 0) ((arr.length : Int) - 1)).toNat 0

/-- the mean of the `2h+1` samples around sample `t` -/
noncomputable def centredMean (arr : List V) (h t : Nat) : V :=
  (1 / ((2 * h + 1 : Nat) : ℝ)) •
    ∑ k ∈ Finset.range (2 * h + 1), edge arr ((t : Int) + h - k)

/-! ## The moving average -/

theorem padEdges_eq (arr : List V) (first last : V) (h : Nat) :
    padEdges arr first last (2 * h + 1)
      = List.replicate h first ++ arr ++ List.replicate h last := by
  have hh : (2 * h + 1 - 1) / 2 = h := by omega
  unfold padEdges
  simp only [hh]
  have e : arr.length + (2 * h + 1) - 1 = h + (arr.length + h) := by omega
  rw [e, ← List.replicate_append_replicate, ← List.replicate_append_replicate]
  have s1 : setSlice (List.replicate h (0 : V) ++ (List.replicate arr.length 0
      ++ List.replicate h 0)) h arr = List.replicate h 0 ++ arr ++ List.replicate h 0 := by
    unfold setSlice
    rw [List.take_left' (by simp), List.drop_append, List.drop_append]
    simp
  rw [s1]
  have s2 : setSlice (List.replicate h (0 : V) ++ arr ++ List.replicate h 0) 0
      (List.replicate h first) = List.replicate h first ++ arr ++ List.replicate h 0 := by
    unfold setSlice
    simp only [List.take_zero, List.nil_append, List.length_replicate, Nat.zero_add,
      List.append_assoc]
    rw [List.drop_left' (by simp)]
  rw [s2]
  unfold setSlice
  have l : (List.replicate h first ++ arr ++ List.replicate h (0 : V)).length - h
      = (List.replicate h first ++ arr).length := by simp; omega
  rw [l, List.take_left, List.drop_of_length_le (by simp; omega)]
  simp

theorem padEdges_get (arr : List V) (first last : V) (hf : arr.head? = some first)
    (hl : arr.getLast? = some last) (h x : Nat) (hx : x < arr.length + 2 * h) :
    (padEdges arr first last (2 * h + 1)).getD x 0 = edge arr ((x : Int) - h) := by
  rw [padEdges_eq]
  have hne : arr ≠ [] := by intro e; rw [e] at hf; cases hf
  have hpos : 0 < arr.length := List.length_pos_iff.2 hne
  unfold edge
  by_cases h1 : x < h
  · rw [List.getD_append _ _ _ _ (by simp; omega), List.getD_append _ _ _ _ (by simpa using h1)]
    rw [show (min (max ((x : Int) - h) 0) ((arr.length : Int) - 1)).toNat = 0 by omega]
    rw [List.getD_eq_getElem _ _ (by simpa using h1)]
    rw [List.head?_eq_getElem?] at hf
    simp [hf]
  · by_cases h2 : x < h + arr.length
    · rw [List.getD_append _ _ _ _ (by simp; omega), List.getD_append_right _ _ _ _ (by simp; omega)]
      congr 1
      simp only [List.length_replicate]
      omega
    · rw [List.getD_append_right _ _ _ _ (by simp; omega)]
      rw [show (min (max ((x : Int) - h) 0) ((arr.length : Int) - 1)).toNat = arr.length - 1 by omega]
      rw [List.getD_eq_getElem _ _ (by simp; omega)]
      rw [List.getLast?_eq_getElem?] at hl
      simp [hl]

theorem roll_getD {α : Type} (l : List α) (i : Int) (j : Nat) (d : α) (hj : j < l.length)
    (h0 : 0 ≤ (j : Int) - i) (h1 : (j : Int) - i < l.length) :
    (roll l i).getD j d = l.getD ((j : Int) - i).toNat d := by
  unfold roll
  have hL : (0 : Int) < l.length := by omega
  rw [List.getD_eq_getElem _ _ (by simpa using hj), List.getElem_rotate]
  rw [List.getD_eq_getElem _ _ (by omega)]
  congr 1
  have hm := Int.emod_nonneg (-i) (by omega : (l.length : Int) ≠ 0)
  have key : ((j : Int) + (-i) % (l.length : Int)) % (l.length : Int) = (j : Int) - i := by
    rw [Int.add_emod_emod, ← sub_eq_add_neg, Int.emod_eq_of_lt h0 h1]
  have : (((j + ((-i) % (l.length : Int)).toNat) % l.length : Nat) : Int) = (j : Int) - i := by
    push_cast
    rw [Int.toNat_of_nonneg hm]
    exact key
  omega

theorem foldl_add_getD (g : Nat → List V) (L : Nat) (hg : ∀ k, (g k).length = L) (j : Nat)
    (ks : List Nat) (s : List V) (hs : s.length = L) :
    (ks.foldl (fun s k => List.zipWith (· + ·) s (g k)) s).length = L ∧
    (j < L → (ks.foldl (fun s k => List.zipWith (· + ·) s (g k)) s).getD j 0
      = s.getD j 0 + (ks.map fun k => (g k).getD j 0).sum) := by
  induction ks generalizing s with
  | nil => exact ⟨hs, fun _ => by simp⟩
  | cons k ks ih =>
    have := ih (List.zipWith (· + ·) s (g k)) (by simp [hs, hg])
    refine ⟨this.1, fun hj => ?_⟩
    rw [List.foldl_cons, this.2 hj, List.map_cons, List.sum_cons, ← add_assoc]
    congr 1
    rw [List.getD_eq_getElem _ _ (by simp [hs, hg, hj]), List.getD_eq_getElem _ _ (by omega),
      List.getD_eq_getElem _ _ (by rw [hg]; exact hj)]
    simp

theorem roll_length {α : Type} (l : List α) (i : Int) : (roll l i).length = l.length := by
  simp [roll]

/-- **C36.** The moving average of a non-empty signal over an odd window larger than one has the
length of the signal, and its samples are the means over the window centred at the sample, where the
signal is continued by its first and last value. -/
theorem C36_average (arr : List V) (hne : arr ≠ []) (h : Nat) (hpos : 0 < h) :
    ∃ out, _moving_average arr (2 * h + 1) = .ok out ∧ out.length = arr.length ∧
      ∀ t < arr.length, out[t]? = some (centredMean arr h t) := by
  obtain ⟨first, hf⟩ : ∃ a, arr.head? = some a := by
    cases arr with
    | nil => exact absurd rfl hne
    | cons a _ => exact ⟨a, rfl⟩
  obtain ⟨last, hl⟩ : ∃ a, arr.getLast? = some a := ⟨_, List.getLast?_eq_some_getLast hne⟩
  have hh : (2 * h + 1 - 1) / 2 = h := by omega
  have hL : (padEdges arr first last (2 * h + 1)).length = arr.length + 2 * h := by
    rw [padEdges_eq]; simp; omega
  have e0 : _moving_average arr (2 * h + 1) = .ok (((((List.range (2 * h + 1)).foldl
      (fun s (k : Nat) => List.zipWith (· + ·) s
        (roll (padEdges arr first last (2 * h + 1)) ((k : Int) - h)))
      (List.replicate (arr.length + (2 * h + 1) - 1) 0)).map
        ((1 / ((2 * h + 1 : Nat) : ℝ)) • ·)).take (arr.length + h)).drop h) := by
    unfold _moving_average
    rw [pyAssert_true (by omega), ok_bind, pyAssert_true (by omega), ok_bind]
    simp only [hf, hl, hh]
    rfl
  refine ⟨_, e0, ?_, ?_⟩
  · have := foldl_add_getD (fun k => roll (padEdges arr first last (2 * h + 1)) ((k : Int) - h))
      (arr.length + 2 * h) (fun k => by rw [roll_length, hL]) 0 (List.range (2 * h + 1))
      (List.replicate (arr.length + (2 * h + 1) - 1) 0) (by simp)
    simp only [List.length_drop, List.length_take, List.length_map, this.1]
    omega
  · intro t ht
    have := foldl_add_getD (fun k => roll (padEdges arr first last (2 * h + 1)) ((k : Int) - h))
      (arr.length + 2 * h) (fun k => by rw [roll_length, hL]) (h + t) (List.range (2 * h + 1))
      (List.replicate (arr.length + (2 * h + 1) - 1) 0) (by simp)
    rw [List.getElem?_drop, List.getElem?_take_of_lt (by omega), List.getElem?_map,
      List.getElem?_eq_getElem (by rw [this.1]; omega)]
    rw [Option.map_some]
    congr 1
    unfold centredMean
    congr 1
    have h2 := this.2 (by omega)
    rw [List.getD_eq_getElem _ _ (by rw [this.1]; omega)] at h2
    rw [h2]
    rw [List.getD_eq_getElem _ _ (by simp; omega), List.getElem_replicate, zero_add]
    rw [Finset.sum_range, ← List.sum_ofFn]
    congr 1
    apply List.ext_getElem
    · simp
    · intro k h1 h2
      have hk : k < 2 * h + 1 := by simpa using h2
      simp only [List.getElem_map, List.getElem_range, List.getElem_ofFn]
      rw [roll_getD _ _ _ _ (by omega) (by omega) (by omega)]
      rw [padEdges_get arr first last hf hl h _ (by omega)]
      congr 1
      omega

/-- **C36.** Even windows, the window of one sample, and the empty signal are rejected. -/
theorem C36_average_rejects (arr : List V) (w : Nat) (h : w % 2 = 0 ∨ w ≤ 1 ∨ arr = []) :
    ∃ e, _moving_average arr w = .error e := by
  unfold _moving_average
  by_cases h1 : w % 2 = 1
  · rw [pyAssert_true h1, ok_bind]
    by_cases h2 : w > 1
    · rw [pyAssert_true h2, ok_bind]
      rcases h with h | h | rfl
      · omega
      · omega
      · exact ⟨_, rfl⟩
    · rw [pyAssert_false h2]; exact ⟨_, rfl⟩
  · rw [pyAssert_false h1]; exact ⟨_, rfl⟩

theorem edge_const (c : V) (n : Nat) (hn : 0 < n) (i : Int) : edge (List.replicate n c) i = c := by
  unfold edge
  rw [List.getD_eq_getElem _ _ (by simp; omega)]
  simp

/-- **C36.** Constant signals are preserved. -/
theorem C36_average_const (c : V) (n : Nat) (hn : 0 < n) (h : Nat) (hpos : 0 < h) :
    _moving_average (List.replicate n c) (2 * h + 1) = .ok (List.replicate n c) := by
  obtain ⟨out, e, hl, ho⟩ := C36_average (List.replicate n c) (by simp; omega) h hpos
  rw [e]
  congr 1
  apply List.ext_getElem?
  intro t
  by_cases ht : t < n
  · rw [ho t (by simpa using ht)]
    unfold centredMean
    simp only [edge_const c n hn, Finset.sum_const, Finset.card_range]
    rw [← Nat.cast_smul_eq_nsmul ℝ, smul_smul]
    rw [one_div, inv_mul_cancel₀ (by positivity), one_smul]
    simp [ht]
  · rw [List.getElem?_eq_none (by rw [hl]; simpa using ht), List.getElem?_eq_none (by simpa using ht)]

theorem edge_linear (a b : ℝ) (x y : List V) (hxy : x.length = y.length) (hx : x ≠ []) (i : Int) :
    edge (List.zipWith (fun u v => a • u + b • v) x y) i = a • edge x i + b • edge y i := by
  have hpos : 0 < x.length := List.length_pos_iff.2 hx
  unfold edge
  rw [List.length_zipWith, ← hxy, Nat.min_self]
  rw [List.getD_eq_getElem _ _ (by simp; omega), List.getD_eq_getElem _ _ (by omega),
    List.getD_eq_getElem _ _ (by omega)]
  simp

/-- **C36.** Smoothing is linear. -/
theorem C36_average_linear (a b : ℝ) (x y : List V) (hxy : x.length = y.length) (hx : x ≠ [])
    (h : Nat) (hpos : 0 < h) :
    ∃ ox oy, _moving_average x (2 * h + 1) = .ok ox ∧ _moving_average y (2 * h + 1) = .ok oy ∧
      _moving_average (List.zipWith (fun u v => a • u + b • v) x y) (2 * h + 1)
        = .ok (List.zipWith (fun u v => a • u + b • v) ox oy) := by
  have hpx : 0 < x.length := List.length_pos_iff.2 hx
  have hy : y ≠ [] := by intro e; rw [e, List.length_nil] at hxy; omega
  obtain ⟨ox, ex, lx, vx⟩ := C36_average x hx h hpos
  obtain ⟨oy, ey, ly, vy⟩ := C36_average y hy h hpos
  have hz : List.zipWith (fun u v => a • u + b • v) x y ≠ [] := by
    intro e
    have := congrArg List.length e
    rw [List.length_zipWith, List.length_nil] at this
    omega
  obtain ⟨oz, ez, lz, vz⟩ := C36_average _ hz h hpos
  refine ⟨ox, oy, ex, ey, ?_⟩
  rw [ez]
  congr 1
  simp only [List.length_zipWith] at lz vz
  apply List.ext_getElem?
  intro t
  by_cases ht : t < x.length
  · rw [vz t (by omega)]
    rw [List.getElem?_zipWith, vx t ht, vy t (by omega)]
    simp only
    congr 1
    unfold centredMean
    simp only [edge_linear a b x y hxy hx, Finset.sum_add_distrib, ← Finset.smul_sum, smul_add]
    rw [smul_comm _ a, smul_comm _ b]
  · rw [List.getElem?_eq_none (by omega), List.getElem?_eq_none (by simp; omega)]

/-! ## The delay -/

theorem delayBy_eq (arr : List V) (d : Nat) (hd : 0 < d) :
    delayBy arr d = (List.replicate d 0 ++ arr).take arr.length := by
  unfold delayBy dropEnd
  rw [if_neg (by omega)]
  congr 1
  simp

/-- **C36.** Delaying keeps the length and shifts by exactly `d` samples, filling with zeros. -/
theorem C36_delay (arr : List V) (d : Nat) (hd : 0 < d) :
    (delayBy arr d).length = arr.length ∧
    ∀ t < arr.length, (delayBy arr d)[t]? = if t < d then some 0 else arr[t - d]? := by
  rw [delayBy_eq arr d hd]
  refine ⟨by simp, fun t ht => ?_⟩
  rw [List.getElem?_take_of_lt ht]
  split
  · rename_i h
    rw [List.getElem?_append_left (by simpa using h)]
    simp [h]
  · rename_i h
    rw [List.getElem?_append_right (by simpa using h)]
    simp

/-- **C36.** Delaying is linear. -/
theorem C36_delay_linear (a b : ℝ) (x y : List V) (hxy : x.length = y.length) (d : Nat)
    (hd : 0 < d) :
    delayBy (List.zipWith (fun u v => a • u + b • v) x y) d
      = List.zipWith (fun u v => a • u + b • v) (delayBy x d) (delayBy y d) := by
  apply List.ext_getElem?
  intro t
  have lx := (C36_delay x d hd).1
  have ly := (C36_delay y d hd).1
  have lz := (C36_delay (List.zipWith (fun u v => a • u + b • v) x y) d hd).1
  by_cases ht : t < x.length
  · rw [(C36_delay _ d hd).2 t (by rw [List.length_zipWith]; omega),
      List.getElem?_zipWith, List.getElem?_zipWith,
      (C36_delay x d hd).2 t ht, (C36_delay y d hd).2 t (by omega)]
    split
    · simp
    · rfl
  · rw [List.getElem?_eq_none (by rw [lz]; simp; omega),
      List.getElem?_eq_none (by rw [List.length_zipWith]; omega)]

/-- **C36.** Constant signals are preserved after the first `d` samples. -/
theorem C36_delay_const (c : V) (n d : Nat) (hd : 0 < d) (t : Nat) (h1 : d ≤ t) (h2 : t < n) :
    (delayBy (List.replicate n c) d)[t]? = some c := by
  rw [(C36_delay _ d hd).2 t (by simpa using h2), if_neg (by omega)]
  rw [List.getElem?_replicate, if_pos (by omega)]

/-! ## Together -/

theorem edge_congr (x y : List V) (t : Nat) (hx : t < x.length) (hy : t < y.length)
    (h : ∀ i ≤ t, x[i]? = y[i]?) (i : Int) (hi : i ≤ t) : edge x i = edge y i := by
  unfold edge
  rw [List.getD_eq_getElem?_getD, List.getD_eq_getElem?_getD]
  rw [show (min (max i 0) ((x.length : Int) - 1)).toNat = (max i 0).toNat by omega,
    show (min (max i 0) ((y.length : Int) - 1)).toNat = (max i 0).toNat by omega]
  rw [h _ (by omega)]

/-- **C36.** Smoothing over a window of `2h+1` samples followed by a delay of at least `h` samples is
causal: the value at time `t` depends on the raw samples up to time `t` only. -/
theorem C36_causal (x y : List V) (h d : Nat) (hpos : 0 < h) (hd : h ≤ d) (t : Nat)
    (hx : t < x.length) (hy : t < y.length) (hxy : ∀ i ≤ t, x[i]? = y[i]?) (ox oy : List V)
    (ex : _moving_average x (2 * h + 1) = .ok ox) (ey : _moving_average y (2 * h + 1) = .ok oy) :
    (delayBy ox d)[t]? = (delayBy oy d)[t]? := by
  obtain ⟨ox', ex', lx, vx⟩ := C36_average x (by intro e; rw [e] at hx; simp at hx) h hpos
  obtain ⟨oy', ey', ly, vy⟩ := C36_average y (by intro e; rw [e] at hy; simp at hy) h hpos
  obtain rfl : ox' = ox := by rw [ex] at ex'; exact (Except.ok.inj ex').symm
  obtain rfl : oy' = oy := by rw [ey] at ey'; exact (Except.ok.inj ey').symm
  rw [(C36_delay ox' d (by omega)).2 t (by omega), (C36_delay oy' d (by omega)).2 t (by omega)]
  split
  · rfl
  · rw [vx _ (by omega), vy _ (by omega)]
    congr 1
    unfold centredMean
    congr 1
    refine Finset.sum_congr rfl fun k hk => ?_
    have := Finset.mem_range.1 hk
    exact edge_congr x y t hx hy hxy _ (by omega)

/-- Smoothing and delaying all channels, as `imu` does when only `smoothen_degree` is given. -/
noncomputable def smoothAndDelay (w : Nat) (m : Dict (List (Vec3 ℝ))) : Py (Dict (List (Vec3 ℝ))) := do
  let s ← imuSmooth (some w) none m
  pure (imuDelay s.2 s.1)

/-- **C36.** With smoothing and no explicit delay, `imu` processes every channel by the moving
average and a delay of half the window: channel names and lengths are kept, and every channel is
causal. -/
theorem C36_channels (h : Nat) (hpos : 0 < h) (m : Dict (List (Vec3 ℝ)))
    (hm : ∀ kv ∈ m, kv.2 ≠ []) :
    ∃ r, smoothAndDelay (2 * h + 1) m = .ok r ∧
      List.Forall₂ (fun (a b : String × List (Vec3 ℝ)) => b.1 = a.1 ∧ b.2.length = a.2.length ∧
        ∃ o, _moving_average a.2 (2 * h + 1) = .ok o ∧ b.2 = delayBy o h) m r := by
  have key : ∀ m : Dict (List (Vec3 ℝ)), (∀ kv ∈ m, kv.2 ≠ []) →
      ∃ s, mapChannels (_moving_average · (2 * h + 1)) m = .ok s ∧
      List.Forall₂ (fun (a b : String × List (Vec3 ℝ)) => b.1 = a.1 ∧ b.2.length = a.2.length ∧
        _moving_average a.2 (2 * h + 1) = .ok b.2) m s := by
    intro m
    induction m with
    | nil => intro _; exact ⟨[], rfl, .nil⟩
    | cons kv m ih =>
      intro hm
      obtain ⟨s, es, hs⟩ := ih fun x hx => hm x (by simp [hx])
      obtain ⟨o, eo, lo, _⟩ := C36_average kv.2 (hm kv (by simp)) h hpos
      refine ⟨(kv.1, o) :: s, ?_, .cons ⟨rfl, lo, eo⟩ hs⟩
      unfold mapChannels at es ⊢
      rw [List.mapM_cons]
      dsimp only
      rw [eo]
      rw [ok_bind, pure_ok, ok_bind, es]
      rfl
  obtain ⟨s, es, hs⟩ := key m hm
  have hh : (2 * h + 1 - 1) / 2 = h := by omega
  refine ⟨s.map fun kv => (kv.1, delayBy kv.2 h), ?_, ?_⟩
  · unfold smoothAndDelay imuSmooth
    simp only [es, ok_bind, pure_ok, Option.getD_none, hh]
    unfold imuDelay
    simp only [gt_iff_lt, hpos, if_true]
  · rw [List.forall₂_map_right_iff]
    refine hs.imp fun a b hab => ⟨hab.1, ?_, b.2, hab.2.2, rfl⟩
    rw [(C36_delay b.2 h hpos).1, hab.2.1]

/-- **C36.** No delay is applied when the delay is zero or missing. -/
theorem C36_no_delay (m : Dict (List (Vec3 ℝ))) : imuDelay none m = m ∧ imuDelay (some 0) m = m :=
  ⟨rfl, rfl⟩

/-- **C36.** The noise-free simulated IMU with smoothing is the unsmoothed IMU followed by the moving
average and the delay of half a window. -/
theorem C36_imu {K : Type} (R : Rng K) (xs : List (Transform ℝ)) (gravity : Vec3 ℝ) (dt : ℝ)
    (a : ImuArgs K) (w : Nat) (hs : a.smoothen_degree = some w) (hd : a.delay = none)
    (hn : a.noisy = false) (hu : a.natural_units = false) :
    imu R xs gravity dt a = (do
      let raw ← imu R xs gravity dt { a with smoothen_degree := none }
      smoothAndDelay w raw) := by
  unfold imu smoothAndDelay
  simp only [hs, hd, hn, hu, bind_assoc]
  refine bind_congr fun o => bind_congr fun x1 => bind_congr fun x2 => bind_congr fun x3 =>
    bind_congr fun acc => bind_congr fun gyr => bind_congr fun mag => ?_
  have e : imuSmooth none none ([("acc", acc), ("gyr", gyr)] ++ mag.1)
      = .ok ([("acc", acc), ("gyr", gyr)] ++ mag.1, none) := rfl
  rw [e, ok_bind]
  rfl

/-! ## Examples -/

/-- Window 3, four samples, real numbers. -/
example : _moving_average [0, 3, 6, 0] 3 = .ok [1, 3, 3, (2 : ℝ)] := by
  obtain ⟨out, e, l, v⟩ := C36_average [0, 3, 6, (0 : ℝ)] (by simp) 1 (by norm_num)
  rw [show (3 : Nat) = 2 * 1 + 1 by norm_num, e]
  congr 1
  match out, l with
  | [a, b, c, d], _ =>
    have h0 := v 0 (by simp); have h1 := v 1 (by simp); have h2 := v 2 (by simp)
    have h3 := v 3 (by simp)
    simp [centredMean, Finset.sum_range_succ, edge] at h0 h1 h2 h3
    norm_num at h0 h1 h2 h3
    simp [h0, h1, h2, h3]

example : delayBy [1, 2, 3, (4 : ℝ)] 2 = [0, 0, 1, 2] := by
  simp [delayBy, dropEnd, List.replicate]

end RingLib.sensors
