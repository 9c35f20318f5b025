import Mathlib.Tactic.NormNum
import Mathlib.Tactic.IntervalCases
import Verif.Lemmas.RandomDraw

/-!
# C30 - C33: random trajectories
-/

namespace RingLib
open Real random

/-! ## C33 interpolation -/

/-- **C33.** For strictly increasing knot times `cosInterpolate` returns the knot values at the knots,
is monotone (so never overshoots) between neighbouring knots, and constant after the last one. -/
theorem C33_cos (xp fp : List ℝ) (hs : xp.Pairwise (· < ·)) (hl : fp.length = xp.length) :
    Interpolates xp fp (fun x => cosInterpolate x xp fp) :=
  interpWith_interpolates cos_interpolate cos_twoPoint _ (fun _ => UnitMap.id) xp fp hs hl

/-- **C33.** So does the randomised interpolation, with either method, whatever is drawn. -/
theorem C33_random {K : Type} (R : Rng K) (n : Nat) (m : Option Nat) (hn : 1 ≤ n)
    (hm : ∀ k ∈ m, n ≤ k) (method : InterpMethod) (xp fp : List ℝ) (key : K)
    (hs : xp.Pairwise (· < ·)) (hl : fp.length = xp.length) :
    ∃ f, (∀ x, interpolate R n m method x xp fp key = some (f x)) ∧ Interpolates xp fp f := by
  obtain ⟨w, hw, he⟩ := interpolate_eq R n m hn hm method xp fp key
  exact ⟨_, he, interpWith_interpolates _ (two_point_interp_twoPoint method) w hw xp fp hs hl⟩

/-- **C33.** The reparametrisation it draws for an interval is a non-decreasing map of `[0, 1]` onto
itself. -/
theorem C33_reparametrisation {K : Type} (R : Rng K) (n : Nat) (m : Option Nat) (hn : 1 ≤ n)
    (hm : ∀ k ∈ m, n ≤ k) (key : K) :
    ∃ cdf, _generate_cdf R n m key = some cdf ∧ UnitMap (fun alpha => _biject_alpha alpha cdf) := by
  obtain ⟨cdf, h1, h2⟩ := generate_cdf_isCdf R n m hn hm key
  exact ⟨cdf, h1, biject_unitMap cdf h2⟩

/-- **C33, the part that does not hold.** Left of the first knot `cosInterpolate` is not constant: it
continues the cosine of the first interval. (The trajectory functions never ask for such a point,
their first knot is at time 0.) -/
theorem C33_left_fails : ∃ xp fp : List ℝ, ∃ x : ℝ, xp.Pairwise (· < ·) ∧
    fp.length = xp.length ∧ (∀ y ∈ xp, x < y) ∧ ∃ h : 0 < fp.length,
      cosInterpolate x xp fp ≠ fp[0] := by
  refine ⟨[0, 1], [0, 1], -1, by simp, rfl, by simp, by simp, ?_⟩
  have hs : searchsorted_right [0, 1] (-1) = 0 := by
    unfold searchsorted_right
    rw [List.countP_eq_zero]
    intro a ha
    simp only [List.mem_cons, List.not_mem_nil, or_false] at ha
    rcases ha with rfl | rfl <;> norm_num
  have hi : interval [0, 1] (-1) = 1 := by
    unfold interval
    rw [hs]
    simp
  unfold cosInterpolate
  simp only [hi]
  norm_num [jaxGet, jaxIdx, cos_interpolate]

/-- The hypotheses can be met: three knots, one of them at the query point. -/
example : cosInterpolate 2 [0, 2, 3] [5, 1, 4] = 1 :=
  (C33_cos [0, 2, 3] [5, 1, 4] (by norm_num) rfl).knot 1 (by simp) (by simp)

/-! ## C32 the knot buffer -/

theorem IsKnots.imp {Q Q' : ℝ × ℝ → ℝ × ℝ → Prop} {x0 T : ℝ} {kn : List (ℝ × ℝ)}
    (h : IsKnots Q x0 T kn) (hQ : ∀ a b, Q a b → Q' a b) : IsKnots Q' x0 T kn :=
  ⟨h.start, h.chain.imp hQ, h.inside, h.beyond⟩

/-- Knots at least `t_min` apart. -/
def Gap (t_min : ℝ) (a b : ℝ × ℝ) : Prop := a.1 + t_min ≤ b.1

/-- What the buffer `buf` handed to the interpolation has to do with the knots `kn` that were drawn. -/
structure HoldsKnots (T t_min Ts : ℝ) (kn buf : List (ℝ × ℝ)) : Prop where
  /-- one row less than there may be knots -/
  length : buf.length = ⌊T / t_min⌋.toNat + 1
  knots_le : kn.length ≤ buf.length + 1
  /-- every row but the last holds the knot of that number, or the last knot if there are fewer -/
  row : ∀ k, ∀ hk : k + 1 < buf.length, ∀ hk' : min k (kn.length - 1) < kn.length,
    buf[k] = (⌊kn[min k (kn.length - 1)].1 / Ts⌋ * Ts, kn[min k (kn.length - 1)].2)
  /-- the last row holds the last knot -/
  last : ∀ h : buf.length - 1 < buf.length, ∀ h' : kn.length - 1 < kn.length,
    buf[buf.length - 1] = (⌊kn[kn.length - 1].1 / Ts⌋ * Ts, kn[kn.length - 1].2)
  /-- times never decrease -/
  sorted : buf.Pairwise (fun a b => a.1 ≤ b.1)
  /-- every sample time before the end of the sequence is covered -/
  covers : ∀ h : buf.length - 1 < buf.length, ∀ k : Nat, k * Ts ≤ T → k * Ts ≤ buf[buf.length - 1].1

theorem holdsKnots {Q : ℝ × ℝ → ℝ × ℝ → Prop} {x0 T t_min Ts : ℝ} {kn : List (ℝ × ℝ)}
    (h : IsKnots Q x0 T kn) (hQ : ∀ a b, Q a b → a.1 + t_min ≤ b.1) (ht : 0 < t_min) (hT : 0 ≤ T)
    (hTs : 0 < Ts) :
    HoldsKnots T t_min Ts kn (layout (⌊T / t_min⌋.toNat + 1) (kn.map (knotRow Ts))) := by
  have h2 := IsKnots.two_le h hT
  have hlast : ∀ h : (layout (⌊T / t_min⌋.toNat + 1) (kn.map (knotRow Ts))).length - 1 <
      (layout (⌊T / t_min⌋.toNat + 1) (kn.map (knotRow Ts))).length,
      ∀ h' : kn.length - 1 < kn.length,
      (layout (⌊T / t_min⌋.toNat + 1) (kn.map (knotRow Ts)))[
        (layout (⌊T / t_min⌋.toNat + 1) (kn.map (knotRow Ts))).length - 1] =
      knotRow Ts kn[kn.length - 1] := by
    intro hl hl'
    obtain ⟨j, hj, e, hj'⟩ := layout_getElem (⌊T / t_min⌋.toNat + 1) Ts kn (by omega) _ hl
    rw [layout_length] at hj'
    rw [if_neg (by omega)] at hj'
    subst hj'
    exact e
  refine { length := layout_length _ _, knots_le := ?_, row := ?_, last := hlast, sorted := ?_,
           covers := ?_ }
  · rw [layout_length]
    exact IsKnots.length_le h hQ ht hT
  · intro k hk hk'
    obtain ⟨j, hj, e, hj'⟩ := layout_getElem (⌊T / t_min⌋.toNat + 1) Ts kn (by omega) k (by omega)
    rw [layout_length] at hk
    rw [if_pos (by omega)] at hj'
    subst hj'
    exact e
  · have := layout_sorted h hQ ht hT hTs (⌊T / t_min⌋.toNat + 1)
    rw [List.pairwise_map] at this
    exact this
  · intro hl k hk
    rw [hlast hl (by omega)]
    apply le_floorTo hTs
    have := h.beyond kn[kn.length - 1] (by
      rw [List.getLast?_eq_getElem?, List.getElem?_eq_getElem (by omega)]
      rfl)
    linarith

/-- **C32 (angles).** For every duration and every random stream the drawing loop ends; the knots are
at least `t_min` apart, exactly the last one lies beyond the end of the sequence, and the buffer holds
them in order, with the last row beyond every sample time, so that interpolation never extrapolates.
Not shown, since false (`C32_room_fails`): that the buffer has room for all knots. -/
theorem C32_angle_partial {K : Type} (R : Rng K) (A : AngleArgs) (ht : 0 < A.t_min) (hT : 0 ≤ A.T)
    (hTs : 0 < A.Ts) (key_t key_ang : K) :
    ∃ kn buf key, angle_knots R A key_t key_ang = some (buf, key) ∧
      IsKnots (Gap A.t_min) A.ANG_0 A.T kn ∧ HoldsKnots A.T A.t_min A.Ts kn buf := by
  obtain ⟨kn, key, h1, h2⟩ := angle_knots_eq R A ht hT key_t key_ang
  exact ⟨kn, _, key, h2, h1.imp (angStep_gap R A), holdsKnots h1 (angStep_gap R A) ht hT hTs⟩

/-- **C32 (positions).** -/
theorem C32_position_partial {K : Type} (R : Rng K) (A : PosArgs) (ht : 0 < A.t_min) (hT : 0 ≤ A.T)
    (hTs : 0 < A.Ts) (key : K) :
    ∃ kn buf key', position_knots R A key = some (buf, key') ∧
      IsKnots (Gap A.t_min) A.POS_0 A.T kn ∧ HoldsKnots A.T A.t_min A.Ts kn buf := by
  obtain ⟨kn, key', h1, h2⟩ := position_knots_eq R A ht hT key
  exact ⟨kn, _, key', h2, h1.imp (posStep_gap R A), holdsKnots h1 (posStep_gap R A) ht hT hTs⟩

/-- **C32.** If the sampling interval is not longer than `t_min`, the times of distinct knots in the
buffer are strictly increasing. -/
theorem C32_strict {x0 T t_min Ts : ℝ} {kn : List (ℝ × ℝ)} (h : IsKnots (Gap t_min) x0 T kn)
    (hTs : 0 < Ts) (hle : Ts ≤ t_min) (i j : Nat) (hij : i < j) (hj : j < kn.length) :
    (⌊kn[i].1 / Ts⌋ * Ts : ℝ) < ⌊kn[j].1 / Ts⌋ * Ts := by
  have := List.pairwise_iff_getElem.mp (IsKnots.pairwise h (fun _ _ h => h) (by linarith)) i j
    (by omega) hj hij
  exact floorTo_lt hTs (by linarith)

/-- a stream that always draws the same -/
def constRng (u : ℝ) (b : Bool) : Rng Unit :=
  ⟨fun _ _ _ => (), fun _ => u, fun _ _ _ => u, fun _ _ => b, fun _ lo _ => lo, fun _ _ j => j,
    fun _ _ _ => 0⟩

theorem constRng_ok (u : ℝ) (b : Bool) (h0 : 0 ≤ u) (h1 : u < 1) : (constRng u b).Ok :=
  ⟨fun _ => ⟨h0, h1⟩, fun _ _ _ => ⟨h0, h1⟩, fun _ _ _ h => ⟨le_rfl, h⟩, fun _ _ _ h => h,
    fun _ _ _ _ _ _ h => h⟩

/-- `T = 1.4`, a new knot every 0.5 to 0.7 seconds -/
noncomputable def roomArgs : PosArgs where
  POS_0 := 0
  pos_min := fun _ => -1
  pos_max := fun _ => 1
  dpos_min := fun _ => 0.001
  dpos_max := fun _ => 0.7
  t_min := 0.5
  t_max := fun _ => 0.7
  T := 1.4
  Ts := 0.1

theorem floor_roomArgs : ⌊roomArgs.T / roomArgs.t_min⌋.toNat + 1 = 3 := by
  have : ⌊(1.4 : ℝ) / 0.5⌋ = 2 := by
    rw [Int.floor_eq_iff]
    norm_num
  show ⌊(1.4 : ℝ) / 0.5⌋.toNat + 1 = 3
  rw [this]
  rfl

/-- **C32, the part that does not hold.** With intervals of 0.6 s in a sequence of 1.4 s four knots
(including the start) are drawn; the buffer has three rows and the third knot is overwritten by the
fourth. -/
theorem C32_room_fails : ∃ (K : Type) (R : Rng K) (A : PosArgs) (key : K), R.Ok ∧ 0 < A.t_min ∧
    0 ≤ A.T ∧ 0 < A.Ts ∧ (∀ t, A.t_min ≤ A.t_max t) ∧ A.Ts ≤ A.t_min ∧
    ∃ kn buf key', position_knots R A key = some (buf, key') ∧
      IsKnots (PosStep R A) A.POS_0 A.T kn ∧ HoldsKnots A.T A.t_min A.Ts kn buf ∧
      buf.length < kn.length ∧ ∃ k ∈ kn, ∀ r ∈ buf, r.1 ≠ ⌊k.1 / A.Ts⌋ * A.Ts := by
  have hok := constRng_ok 0.5 false (by norm_num) (by norm_num)
  have ht : 0 < roomArgs.t_min := by show (0 : ℝ) < 0.5; norm_num
  have hT : 0 ≤ roomArgs.T := by show (0 : ℝ) ≤ 1.4; norm_num
  have hTs : 0 < roomArgs.Ts := by show (0 : ℝ) < 0.1; norm_num
  refine ⟨Unit, constRng 0.5 false, roomArgs, (), hok, ht, hT, hTs, ?_, ?_, ?_⟩
  · intro t; show (0.5 : ℝ) ≤ 0.7; norm_num
  · show (0.1 : ℝ) ≤ 0.5; norm_num
  obtain ⟨kn, key', h1, h2⟩ := position_knots_eq (constRng 0.5 false) roomArgs ht hT ()
  have hh := holdsKnots h1 (posStep_gap _ _) ht hT hTs
  generalize layout _ _ = buf at h2 hh
  refine ⟨kn, buf, key', h2, h1, hh, ?_⟩
  -- knots are 0.6 s apart
  have hstep : ∀ a b, PosStep (constRng 0.5 false) roomArgs a b → b.1 = a.1 + 0.6 := by
    rintro a b ⟨key, _, e, -⟩
    rw [e]
    show a.1 + scaleU 0.5 0.5 0.7 = a.1 + 0.6
    unfold scaleU
    norm_num
  have htime : ∀ k, ∀ hk : k < kn.length, kn[k].1 = k * 0.6 := by
    intro k
    induction k with
    | zero =>
      intro hk
      have := h1.start
      rw [List.head?_eq_getElem?, List.getElem?_eq_getElem hk] at this
      rw [Option.some.inj this]
      simp
    | succ k ih =>
      intro hk
      rw [hstep _ _ (List.isChain_iff_getElem.mp h1.chain k hk), ih (by omega)]
      push_cast
      ring
  have h2l := IsKnots.two_le h1 hT
  have hbeyond : (1.4 : ℝ) < kn[kn.length - 1].1 := h1.beyond _ (by
    rw [List.getLast?_eq_getElem?, List.getElem?_eq_getElem (by omega)]; rfl)
  rw [htime] at hbeyond
  have hlen : 4 ≤ kn.length := by
    by_contra hc
    have : kn.length = 2 ∨ kn.length = 3 := by omega
    rcases this with h | h <;> rw [h] at hbeyond <;> norm_num at hbeyond
  have hlen' : kn.length ≤ 4 := by
    have := hh.knots_le
    rw [hh.length, floor_roomArgs] at this
    exact this
  have hbl : buf.length = 3 := hh.length.trans floor_roomArgs
  refine ⟨by omega, kn[2], List.getElem_mem _, ?_⟩
  intro r hr
  rw [List.mem_iff_getElem] at hr
  obtain ⟨k, hk, rfl⟩ := hr
  have hs := fun i j hij hj => C32_strict (h1.imp (posStep_gap _ _)) hTs
    (show roomArgs.Ts ≤ roomArgs.t_min by show (0.1 : ℝ) ≤ 0.5; norm_num) i j hij hj
  rcases Nat.lt_or_ge (k + 1) 3 with hk3 | hk3
  · rw [hh.row k (by omega) (by omega)]
    have := hs (min k (kn.length - 1)) 2 (by omega) (by omega)
    exact this.ne
  · have hk2 : k = buf.length - 1 := by omega
    subst hk2
    rw [hh.last (by omega) (by omega)]
    have := hs 2 (kn.length - 1) (by omega) (by omega)
    exact this.ne'

/-! ## C31 range of motion -/

/-- `AngleArgs` that make sense -/
structure random.AngleArgs.Feasible (A : AngleArgs) : Prop where
  t_min : 0 < A.t_min
  T : 0 ≤ A.T
  Ts : 0 < A.Ts
  t_max : ∀ t, A.t_min ≤ A.t_max t
  dang : ∀ t, 0 ≤ A.dang_min t ∧ A.dang_min t ≤ A.dang_max t
  half : ∀ t, 0 ≤ A.rom_halfsize t
  start : -π ≤ A.ANG_0 ∧ A.ANG_0 ≤ π
  bins : 1 ≤ A.cdf_bins_min
  bins' : ∀ k ∈ A.cdf_bins_max, A.cdf_bins_min ≤ k

/-- a property of the start value that steps preserve holds for all knots -/
theorem knots_all {Q : ℝ × ℝ → ℝ × ℝ → Prop} {x0 T : ℝ} {kn : List (ℝ × ℝ)}
    (h : IsKnots Q x0 T kn) (P : ℝ → Prop) (h0 : P x0) (hs : ∀ a b, Q a b → P a.2 → P b.2) :
    ∀ k ∈ kn, P k.2 := by
  have : ∀ k, ∀ hk : k < kn.length, P kn[k].2 := by
    intro k
    induction k with
    | zero =>
      intro hk
      have := h.start
      rw [List.head?_eq_getElem?, List.getElem?_eq_getElem hk] at this
      rw [Option.some.inj this]
      exact h0
    | succ k ih =>
      intro hk
      exact hs _ _ (List.isChain_iff_getElem.mp h.chain k hk) (ih (by omega))
  intro k hk
  rw [List.mem_iff_getElem] at hk
  obtain ⟨j, hj, rfl⟩ := hk
  exact this j hj

/-- bounds on the knots are bounds on the angles returned -/
theorem angle_bounds {K : Type} (R : Rng K) (A : AngleArgs) (hA : A.Feasible)
    (hr : A.range_of_motion = true) (key_t key_ang : K) (lo hi : ℝ)
    (h0 : lo ≤ A.ANG_0 ∧ A.ANG_0 ≤ hi)
    (hs : ∀ a b, AngStep R A a b → (lo ≤ a.2 ∧ a.2 ≤ hi) → (lo ≤ b.2 ∧ b.2 ≤ hi)) :
    ∃ q, random_angle_over_time R A key_t key_ang = some q ∧
      q.length = (sample_times A.T A.Ts A.N).length ∧ ∀ y ∈ q, lo ≤ y ∧ y ≤ hi := by
  obtain ⟨kn, key, h1, h2⟩ := angle_knots_eq R A hA.t_min hA.T key_t key_ang
  have hb := knots_all h1 (fun x => lo ≤ x ∧ x ≤ hi) h0 hs
  obtain ⟨q, hq, hlen, hall⟩ := resample_bounds R A.randomized_interpolation A.cdf_bins_min
    A.cdf_bins_max hA.bins hA.bins' A.interpolation_method hA.Ts A.N h1 (angStep_gap R A)
    hA.t_min hA.T (⌊A.T / A.t_min⌋.toNat + 1) (by omega) key lo hi hb
  refine ⟨q, ?_, hlen, hall⟩
  unfold random_angle_over_time
  rw [h2]
  show (do let q ← resample R _ _ _ _ _ _ _ _ _; pure (if _ then q else _)) = _
  rw [hq, hr]
  rfl

/-- **C31.** With range of motion the angles stay within `[-π, π]`: for every random stream, every
method and every configuration. There is one angle per sample time. -/
theorem C31_pi {K : Type} (R : Rng K) (hR : R.Ok) (A : AngleArgs) (hA : A.Feasible)
    (hr : A.range_of_motion = true) (key_t key_ang : K) :
    ∃ q, random_angle_over_time R A key_t key_ang = some q ∧
      q.length = (sample_times A.T A.Ts A.N).length ∧ ∀ y ∈ q, -π ≤ y ∧ y ≤ π := by
  apply angle_bounds R A hA hr key_t key_ang _ _ hA.start
  rintro a b ⟨key, key', -, e⟩ -
  rw [e]
  apply next_phi_pi R hR
  · exact hr
  · show A.ANG_0 - A.rom_halfsize a.1 ≤ π
    linarith [hA.start.2, hA.half a.1]

/-- **C31.** They never go below the lower end of the range of motion around the start angle. -/
theorem C31_lower_partial {K : Type} (R : Rng K) (hR : R.Ok) (A : AngleArgs) (hA : A.Feasible)
    (hr : A.range_of_motion = true) (key_t key_ang : K) (h : ℝ) (hh : ∀ t, A.rom_halfsize t ≤ h) :
    ∃ q, random_angle_over_time R A key_t key_ang = some q ∧ ∀ y ∈ q, A.ANG_0 - h ≤ y := by
  have h0 : 0 ≤ h := (hA.half 0).trans (hh 0)
  obtain ⟨q, hq, -, hall⟩ := angle_bounds R A hA hr key_t key_ang (A.ANG_0 - h) π
    ⟨by linarith, hA.start.2⟩ (by
      rintro a b ⟨key, key', -, e⟩ -
      rw [e]
      constructor
      · refine le_trans ?_ (next_phi_ge_rom R _ _ _ _)
        show A.ANG_0 - h ≤ A.ANG_0 - A.rom_halfsize a.1
        linarith [hh a.1]
      · apply (next_phi_pi R hR _ hr ?_ _ _ _).2
        show A.ANG_0 - A.rom_halfsize a.1 ≤ π
        linarith [hA.start.2, hA.half a.1])
  exact ⟨q, hq, fun y hy => (hall y hy).1⟩

/-- **C31.** The whole range of motion is respected if there is no minimal speed. In general it is not,
see `C31_upper_fails`. -/
theorem C31_rom_partial {K : Type} (R : Rng K) (hR : R.Ok) (A : AngleArgs) (hA : A.Feasible)
    (hr : A.range_of_motion = true) (key_t key_ang : K) (h : ℝ) (hh : ∀ t, A.rom_halfsize t = h)
    (h0 : ∀ t, A.dang_min t = 0) :
    ∃ q, random_angle_over_time R A key_t key_ang = some q ∧
      ∀ y ∈ q, A.ANG_0 - h ≤ y ∧ y ≤ A.ANG_0 + h := by
  have h1 : 0 ≤ h := (hh 0) ▸ hA.half 0
  obtain ⟨q, hq, -, hall⟩ := angle_bounds R A hA hr key_t key_ang (max (A.ANG_0 - h) (-π))
    (min (A.ANG_0 + h) π) ⟨max_le (by linarith) hA.start.1, le_min (by linarith) hA.start.2⟩ (by
      rintro a b ⟨key, key', -, e⟩ ⟨ha, ha'⟩
      rw [e]
      have hpi := next_phi_pi R hR (A.at a.1) hr (by
        show A.ANG_0 - A.rom_halfsize a.1 ≤ π
        linarith [hA.start.2, hA.half a.1]) a.2 key' (R.uniformIn key A.t_min (A.t_max a.1))
      have hlow := next_phi_ge_rom R (A.at a.1) a.2 key' (R.uniformIn key A.t_min (A.t_max a.1))
      have hup := next_phi_le_rom R hR (A.at a.1) (h0 a.1) a.2
        (fun _ => ⟨(le_max_right _ _).trans ha, ha'.trans (min_le_right _ _)⟩)
        (by
          show a.2 ≤ A.ANG_0 + A.rom_halfsize a.1
          rw [hh]
          exact ha'.trans (min_le_left _ _))
        (by
          show A.ANG_0 - A.rom_halfsize a.1 ≤ A.ANG_0 + A.rom_halfsize a.1
          linarith [hA.half a.1]) key' (R.uniformIn key A.t_min (A.t_max a.1))
      have e1 : (A.at a.1).rom_lower = A.ANG_0 - h := by
        show A.ANG_0 - A.rom_halfsize a.1 = _
        rw [hh]
      have e2 : (A.at a.1).rom_upper = A.ANG_0 + h := by
        show A.ANG_0 + A.rom_halfsize a.1 = _
        rw [hh]
      rw [e1] at hlow
      rw [e2] at hup
      exact ⟨max_le hlow hpi.1, le_min hup hpi.2⟩)
  exact ⟨q, hq, fun y hy => ⟨(le_max_left _ _).trans (hall y hy).1,
    (hall y hy).2.trans (min_le_left _ _)⟩⟩

/-- **C31.** It is also respected with the default half-size of `2π` (or any larger one). -/
theorem C31_default_partial {K : Type} (R : Rng K) (hR : R.Ok) (A : AngleArgs) (hA : A.Feasible)
    (hr : A.range_of_motion = true) (key_t key_ang : K) (h : ℝ) (hh : 2 * π ≤ h) :
    ∃ q, random_angle_over_time R A key_t key_ang = some q ∧
      ∀ y ∈ q, A.ANG_0 - h ≤ y ∧ y ≤ A.ANG_0 + h := by
  obtain ⟨q, hq, -, hall⟩ := C31_pi R hR A hA hr key_t key_ang
  refine ⟨q, hq, fun y hy => ?_⟩
  have := hall y hy
  have := hA.start
  constructor <;> linarith

/-- The hypotheses can be met: no minimal speed, half-size 0.3. -/
example : ∃ A : AngleArgs, A.Feasible ∧ A.range_of_motion = true ∧ (∀ t, A.rom_halfsize t = 0.3) ∧
    (∀ t, A.dang_min t = 0) ∧ 0 < A.T := by
  refine ⟨⟨0.5, fun _ => 0, fun _ => 2, fun _ => 0, fun _ => 1, 0.1, fun _ => 0.5, 60, 0.01, none, 5,
    false, true, .uniform, fun _ => 0.3, 5, none, .cosine⟩, ?_, rfl, fun _ => rfl, fun _ => rfl, ?_⟩
  · have := Real.two_le_pi
    constructor
    all_goals dsimp only
    · norm_num
    · norm_num
    · norm_num
    · intro t; norm_num
    · intro t; norm_num
    · intro t; norm_num
    · constructor <;> linarith
    · norm_num
    · intro k hk; cases hk
  · dsimp only; norm_num

/-- half-size 0.5 around 0, at least 1 rad/s, knots 1 to 3 seconds apart -/
noncomputable def romArgs : AngleArgs where
  ANG_0 := 0
  dang_min := fun _ => 1
  dang_max := fun _ => 2
  delta_ang_min := fun _ => 0
  delta_ang_max := fun _ => 10
  t_min := 1
  t_max := fun _ => 3
  T := 1.5
  Ts := 1
  range_of_motion := true
  rom_halfsize := fun _ => 0.5

theorem romArgs_feasible : romArgs.Feasible := by
  constructor
  all_goals simp only [romArgs]
  · norm_num
  · norm_num
  · norm_num
  · intro t; norm_num
  · intro t; norm_num
  · intro t; norm_num
  · constructor <;> linarith [Real.pi_pos]
  · norm_num
  · intro k hk; cases hk

/-- the value of the cosine interpolation half way between two knots -/
theorem cosInterpolate_mid (b : ℝ) : cosInterpolate 1 [0, 2] [0, b] = b / 2 := by
  have hs : ([0, 2] : List ℝ).Pairwise (· < ·) := by norm_num
  rw [cosInterpolate_eq, interpWith_eq cos_interpolate _ [0, 2] [0, b] 1 hs rfl 0 (by simp)
    (by norm_num) (by norm_num)]
  have : (2 : ℝ)⁻¹ * π = π / 2 := by ring
  simp [cos_interpolate, this]

/-- a start knot and one knot two seconds later, resampled once a second -/
theorem two_knots {Q : ℝ × ℝ → ℝ × ℝ → Prop} {x0 T : ℝ} {kn : List (ℝ × ℝ)} (b : ℝ)
    (h : IsKnots Q x0 T kn) (hT : T = 1.5) (hs : ∀ y, Q (0, x0) y → y = (2, b)) :
    kn = [(0, x0), (2, b)] := by
  have h2 := IsKnots.two_le h (by rw [hT]; norm_num)
  match kn, h, h2 with
  | [], _, h2 => simp at h2
  | [_], _, h2 => simp at h2
  | [a, c], h, _ =>
    have h1 := h.start
    simp at h1
    subst h1
    have := h.chain
    rw [List.isChain_pair] at this
    rw [hs c this]
  | a :: c :: d :: l, h, _ =>
    exfalso
    have h1 := h.start
    simp at h1
    subst h1
    have hc := h.chain
    rw [List.isChain_cons_cons] at hc
    have := h.inside c (by simp)
    rw [hs c hc.1, hT] at this
    norm_num at this

theorem knotRow_two (b : ℝ) :
    layout (⌊(1.5 : ℝ) / 1⌋.toNat + 1) (([(0, 0), (2, b)] : List (ℝ × ℝ)).map (knotRow 1)) =
      [(0, 0), (2, b)] := by
  have : ⌊(1.5 : ℝ) / 1⌋ = 1 := by
    rw [Int.floor_eq_iff]
    norm_num
  rw [this]
  have h2 : ⌊(2 : ℝ)⌋ = 2 := by norm_num
  simp [layout, knotRow, floorTo, List.range_succ, h2]

theorem sample_times_two : sample_times 1.5 1 none = [0, 1] := by
  have : ⌈(1.5 : ℝ) / 1⌉ = 2 := by
    rw [Int.ceil_eq_iff]
    norm_num
  unfold sample_times
  rw [Option.getD_none, this]
  simp [List.range_succ]

/-- **C31, the part that does not hold.** With a minimal speed the upper end of the range of motion is
overstepped: in `[-0.5, 0.5]` around the start angle 0, with at least 1 rad/s, the knot after two
seconds is `2`, and the trajectory runs through `1`. The draw from an empty interval returns its lower
end, and passes the check of the loop since only differences are checked. -/
theorem C31_upper_fails : ∃ (K : Type) (R : Rng K) (A : AngleArgs) (k k' : K), R.Ok ∧ A.Feasible ∧
    A.range_of_motion = true ∧ (∀ t, A.rom_halfsize t = 0.5) ∧ A.ANG_0 = 0 ∧
    ∃ q, random_angle_over_time R A k k' = some q ∧ ∃ y ∈ q, A.ANG_0 + 0.5 < y := by
  have hok := constRng_ok 0.5 true (by norm_num) (by norm_num)
  refine ⟨Unit, constRng 0.5 true, romArgs, (), (), hok, romArgs_feasible, rfl, fun _ => rfl, rfl,
    ?_⟩
  obtain ⟨kn, key, h1, h2⟩ := angle_knots_eq (constRng 0.5 true) romArgs romArgs_feasible.t_min
    romArgs_feasible.T () ()
  have hpi := Real.two_le_pi
  have hkn := two_knots 2 h1 rfl (by
    rintro y ⟨_, _, e1, e2⟩
    have hdt : (constRng 0.5 true).uniformIn () (1 : ℝ) 3 = 2 := by
      show scaleU 0.5 1 3 = 2
      unfold scaleU
      norm_num
    have e1' : y.1 = 2 := by
      rw [e1]
      show (0 : ℝ) + (constRng 0.5 true).uniformIn () 1 3 = 2
      rw [hdt]
      norm_num
    have e2' : y.2 = 2 := by
      rw [e2]
      show _next_phi (constRng 0.5 true) (romArgs.at 0) 0 ()
        ((constRng 0.5 true).uniformIn () 1 3) = 2
      rw [hdt]
      show scaleU 0.5 (max (min (_clip_to_pi (0 + 1 * 1 * 2)) (_clip_to_pi (0 + 1 * 2 * 2)))
        (0 - 0.5)) (min (max (_clip_to_pi (0 + 1 * 1 * 2)) (_clip_to_pi (0 + 1 * 2 * 2)))
        (0 + 0.5)) = 2
      have c1 : _clip_to_pi (0 + 1 * 1 * 2) = 2 := by
        rw [clip_id] <;> linarith
      have c2 : 2 ≤ _clip_to_pi (0 + 1 * 2 * 2) := c1.ge.trans (clip_mono (by norm_num))
      rw [c1, min_eq_left c2, max_eq_left (by norm_num), scaleU_swap (by norm_num)]
      exact min_le_of_right_le (by norm_num)
    ext
    · exact e1'
    · exact e2')
  refine ⟨[0, 1], ?_, 1, by simp, by show (0 : ℝ) + 0.5 < 1; norm_num⟩
  unfold random_angle_over_time
  rw [h2, hkn]
  show some ((sample_times 1.5 1 none).map _) = _
  rw [sample_times_two]
  have := knotRow_two 2
  show some (([0, 1] : List ℝ).map fun t => cosInterpolate t
    ((layout (⌊(1.5 : ℝ) / 1⌋.toNat + 1) (([(0, 0), (2, 2)] : List (ℝ × ℝ)).map (knotRow 1))).map
      (·.1))
    ((layout (⌊(1.5 : ℝ) / 1⌋.toNat + 1) (([(0, 0), (2, 2)] : List (ℝ × ℝ)).map (knotRow 1))).map
      (·.2))) = some [0, 1]
  rw [this]
  have h0 := (C33_cos [0, 2] [0, 2] (by norm_num) rfl).knot 0 (by simp) (by simp)
  have h1 := cosInterpolate_mid 2
  simp only [List.getElem_cons_zero] at h0
  simp only [List.map_cons, List.map_nil, h0, h1]
  norm_num

/-! ## C30 positions in a box -/

/-- `PosArgs` that make sense -/
structure random.PosArgs.Feasible (A : PosArgs) : Prop where
  t_min : 0 < A.t_min
  T : 0 ≤ A.T
  Ts : 0 < A.Ts
  t_max : ∀ t, A.t_min ≤ A.t_max t
  dpos : ∀ t, 0 ≤ A.dpos_min t ∧ A.dpos_min t < A.dpos_max t
  start : ∀ t, A.pos_min t ≤ A.POS_0 ∧ A.POS_0 ≤ A.pos_max t
  bins : 1 ≤ A.cdf_bins_min
  bins' : ∀ k ∈ A.cdf_bins_max, A.cdf_bins_min ≤ k

theorem position_bounds {K : Type} (R : Rng K) (A : PosArgs) (hA : A.Feasible) (key : K)
    (lo hi : ℝ) (h0 : lo ≤ A.POS_0 ∧ A.POS_0 ≤ hi)
    (hs : ∀ a b, PosStep R A a b → (lo ≤ a.2 ∧ a.2 ≤ hi) → (lo ≤ b.2 ∧ b.2 ≤ hi)) :
    ∃ q, random_position_over_time R A key = some q ∧
      q.length = (sample_times A.T A.Ts A.N).length ∧ ∀ y ∈ q, lo ≤ y ∧ y ≤ hi := by
  obtain ⟨kn, key', h1, h2⟩ := position_knots_eq R A hA.t_min hA.T key
  have hb := knots_all h1 (fun x => lo ≤ x ∧ x ≤ hi) h0 hs
  obtain ⟨q, hq, hlen, hall⟩ := resample_bounds R A.randomized_interpolation A.cdf_bins_min
    A.cdf_bins_max hA.bins hA.bins' A.interpolation_method hA.Ts A.N h1 (posStep_gap R A)
    hA.t_min hA.T (⌊A.T / A.t_min⌋.toNat + 1) (by omega) key' lo hi hb
  refine ⟨q, ?_, hlen, hall⟩
  unfold random_position_over_time
  rw [h2]
  exact hq

/-- **C30 (partial).** If from every position of the box one of the `max_it + 1` draws is acceptable,
then the positions stay in the box. Missing: streams that reject every draw; for those the claim is
false, `C30_fails`. -/
theorem C30_box_partial {K : Type} (R : Rng K) (A : PosArgs) (hA : A.Feasible) (key : K) (lo hi : ℝ)
    (hlo : ∀ t, A.pos_min t = lo) (hhi : ∀ t, A.pos_max t = hi)
    (hacc : ∀ (a : ℝ × ℝ) (k k' : K), lo ≤ a.2 → a.2 ≤ hi →
      ∃ j, j ≤ A.max_it ∧ PosOk A a (a.1 + R.uniformIn k A.t_min (A.t_max a.1),
        posCand R A a (a.1 + R.uniformIn k A.t_min (A.t_max a.1)) (posKey R k' j))) :
    ∃ q, random_position_over_time R A key = some q ∧
      q.length = (sample_times A.T A.Ts A.N).length ∧ ∀ y ∈ q, lo ≤ y ∧ y ≤ hi := by
  have h0 := hA.start 0
  rw [hlo, hhi] at h0
  apply position_bounds R A hA key lo hi h0
  rintro a b ⟨k, k', e, h⟩ ⟨ha, ha'⟩
  rcases h with ⟨hok, -⟩ | ⟨hrej, -⟩
  · have h1 := hok.2.2.1
    have h2 := hok.2.2.2
    rw [hlo] at h1
    rw [hhi] at h2
    exact ⟨h1, h2⟩
  · exfalso
    obtain ⟨j, hj, hok⟩ := hacc a k k' ha ha'
    rw [← e] at hok
    exact hrej j hj hok

/-- a stream that draws "down" and "up" in turn -/
noncomputable def altRng : Rng Nat :=
  ⟨fun k n j => if n = 3 ∧ j = 0 then k + 1 else k, fun _ => 0.5, fun _ _ _ => 0.5,
    fun k _ => k % 2 == 0, fun _ lo _ => lo, fun _ _ j => j, fun _ _ _ => 0⟩

/-- the box `[-1, 1]`, 0.1 to 0.2 m/s, a knot every second -/
noncomputable def altArgs : PosArgs where
  POS_0 := 0
  pos_min := fun _ => -1
  pos_max := fun _ => 1
  dpos_min := fun _ => 0.1
  dpos_max := fun _ => 0.2
  t_min := 1
  t_max := fun _ => 1
  T := 60
  Ts := 0.01

theorem altArgs_feasible : altArgs.Feasible := by
  constructor
  all_goals simp only [altArgs]
  all_goals norm_num
  intro k hk
  cases hk

theorem altRng_key (k j : Nat) : posKey altRng k j = k + j := by
  unfold posKey
  induction j with
  | zero => rfl
  | succ j ih => rw [Function.iterate_succ_apply', ih]; rfl

/-- The hypotheses of `C30_box_partial` can be met by a system that runs into its walls. -/
example : ∃ q, random_position_over_time altRng altArgs 0 = some q ∧
    q.length = (sample_times 60 0.01 none).length ∧ ∀ y ∈ q, -1 ≤ y ∧ y ≤ 1 := by
  apply C30_box_partial altRng altArgs altArgs_feasible 0 (-1) 1 (fun _ => rfl) (fun _ => rfl)
  intro a k k' h0 h1
  have hdt : altRng.uniformIn k altArgs.t_min (altArgs.t_max a.1) = 1 := by
    show scaleU 0.5 1 1 = 1
    unfold scaleU
    norm_num
  rw [hdt]
  have hc : ∀ j, posCand altRng altArgs a (a.1 + 1) (posKey altRng k' j) =
      a.2 + (if (k' + j) % 2 == 0 then (-1 : ℝ) else 1) * 0.15 := by
    intro j
    rw [altRng_key]
    show a.2 + (if (k' + j) % 2 == 0 then (-1 : ℝ) else 1) * scaleU 0.5 0.1 0.2 * (a.1 + 1 - a.1) = _
    unfold scaleU
    norm_num
  have key : ∀ x : ℝ, x = a.2 + 0.15 ∨ x = a.2 + -0.15 → -1 ≤ x → x ≤ 1 →
      PosOk altArgs a (a.1 + 1, x) := by
    intro x hx h2 h3
    have e : |(x - a.2) / (a.1 + 1 - a.1)| = 0.15 := by
      rw [add_sub_cancel_left, div_one]
      rcases hx with rfl | rfl <;> rw [add_sub_cancel_left] <;> norm_num [abs_of_pos]
    refine ⟨?_, ?_, h2, h3⟩
    · show |(x - a.2) / (a.1 + 1 - a.1)| < 0.2
      rw [e]; norm_num
    · show |(x - a.2) / (a.1 + 1 - a.1)| > 0.1
      rw [e]; norm_num
  have hex : ∀ b : Nat, b < 2 → ∃ j, j ≤ 1 ∧ (k' + j) % 2 = b := by
    intro b hb
    rcases Nat.lt_or_ge ((k' + b) % 2) 1 with h | h
    · exact ⟨0, by omega, by omega⟩
    · exact ⟨1, by omega, by omega⟩
  rcases le_total a.2 0 with hneg | hpos
  · obtain ⟨j, hj, e⟩ := hex 1 (by omega)
    refine ⟨j, hj.trans (by show 1 ≤ 100; norm_num), ?_⟩
    rw [hc]
    apply key
    · left; simp [e]
    · simp [e]; linarith
    · simp [e]; linarith
  · obtain ⟨j, hj, e⟩ := hex 0 (by omega)
    refine ⟨j, hj.trans (by show 1 ≤ 100; norm_num), ?_⟩
    rw [hc]
    apply key
    · right; simp [e]
    · simp [e]; linarith
    · simp [e]; linarith

/-- **C30.** In every case, consecutive knots differ by at most the maximal speed times the time
between them. -/
theorem C30_speed {K : Type} (R : Rng K) (hR : R.Ok) (A : PosArgs) (hA : A.Feasible) (key : K) :
    ∃ kn buf key', position_knots R A key = some (buf, key') ∧ IsKnots (fun a b =>
        a.1 + A.t_min ≤ b.1 ∧ |b.2 - a.2| ≤ A.dpos_max a.1 * (b.1 - a.1)) A.POS_0 A.T kn ∧
      HoldsKnots A.T A.t_min A.Ts kn buf := by
  obtain ⟨kn, key', h1, h2⟩ := position_knots_eq R A hA.t_min hA.T key
  refine ⟨kn, _, key', h2, h1.imp ?_, holdsKnots h1 (posStep_gap R A) hA.t_min hA.T hA.Ts⟩
  intro a b hab
  have hgap := posStep_gap R A a b hab
  refine ⟨hgap, ?_⟩
  have hdt : 0 < b.1 - a.1 := by linarith [hA.t_min]
  have hd := hA.dpos a.1
  have hcand : ∀ key, |posCand R A a b.1 key - a.2| ≤ A.dpos_max a.1 * (b.1 - a.1) := by
    intro key
    unfold posCand
    rw [add_sub_cancel_left, abs_mul, abs_mul, abs_of_pos hdt]
    apply mul_le_mul_of_nonneg_right _ hdt.le
    have hu1 : A.dpos_min a.1 ≤ R.uniformIn (R.split key 3 2) (A.dpos_min a.1) (A.dpos_max a.1) :=
      scaleU_ge _ _ _
    have hu2 : R.uniformIn (R.split key 3 2) (A.dpos_min a.1) (A.dpos_max a.1) ≤ A.dpos_max a.1 :=
      scaleU_le (hR.uniform _).1 (hR.uniform _).2 hd.2.le
    rw [abs_of_nonneg (hd.1.trans hu1)]
    split <;> simp <;> exact hu2
  obtain ⟨k, k', -, h⟩ := hab
  rcases h with ⟨-, h | ⟨j, -, h⟩⟩ | ⟨-, h⟩
  · rw [h, sub_self, abs_zero]
    exact mul_nonneg (hd.1.trans hd.2.le) hdt.le
  · rw [h]; exact hcand _
  · rw [h]; exact hcand _

/-- the box `[0, 10]`, start at its lower end, 1 to 2 m/s -/
noncomputable def boxArgs : PosArgs where
  POS_0 := 0
  pos_min := fun _ => 0
  pos_max := fun _ => 10
  dpos_min := fun _ => 1
  dpos_max := fun _ => 2
  t_min := 1
  t_max := fun _ => 3
  T := 1.5
  Ts := 1

theorem boxArgs_feasible : boxArgs.Feasible := by
  constructor
  all_goals simp only [boxArgs]
  all_goals norm_num
  intro k hk
  cases hk

/-- **C30, negation.** With the default of 100 repetitions, the stream that always draws "down"
rejects every sample, and the last rejected one is kept: the trajectory leaves the box. (The branch
that would have kept the old position is never reached.) -/
theorem C30_fails : ∃ (K : Type) (R : Rng K) (A : PosArgs) (key : K), R.Ok ∧ A.Feasible ∧
    A.max_it = 100 ∧ (∀ t, A.pos_min t = 0) ∧
    ∃ q, random_position_over_time R A key = some q ∧ ∃ y ∈ q, y < 0 := by
  have hok := constRng_ok 0.5 true (by norm_num) (by norm_num)
  refine ⟨Unit, constRng 0.5 true, boxArgs, (), hok, boxArgs_feasible, rfl, fun _ => rfl, ?_⟩
  obtain ⟨kn, key, h1, h2⟩ := position_knots_eq (constRng 0.5 true) boxArgs boxArgs_feasible.t_min
    boxArgs_feasible.T ()
  have hkn := two_knots (-3) h1 rfl (by
    rintro y ⟨k, k', e1, h⟩
    have hdt : (constRng 0.5 true).uniformIn () (1 : ℝ) 3 = 2 := by
      show scaleU 0.5 1 3 = 2
      unfold scaleU
      norm_num
    have e1' : y.1 = 2 := by
      rw [e1]
      show (0 : ℝ) + (constRng 0.5 true).uniformIn () 1 3 = 2
      rw [hdt]
      norm_num
    have hc : ∀ key, posCand (constRng 0.5 true) boxArgs (0, boxArgs.POS_0) y.1 key = -3 := by
      intro key
      rw [e1']
      show (0 : ℝ) + (-1) * scaleU 0.5 1 2 * (2 - 0) = -3
      unfold scaleU
      norm_num
    have e2' : y.2 = -3 := by
      rcases h with ⟨hok', h | ⟨j, -, h⟩⟩ | ⟨-, h⟩
      · exfalso
        have := hok'.2.1
        rw [h] at this
        simp only [sub_self, zero_div, abs_zero] at this
        have h' : (0 : ℝ) > 1 := this
        norm_num at h'
      · rw [h, hc]
      · rw [h, hc]
    ext
    · exact e1'
    · exact e2')
  refine ⟨[0, -3 / 2], ?_, -3 / 2, by simp, by norm_num⟩
  unfold random_position_over_time
  rw [h2, hkn]
  show some ((sample_times 1.5 1 none).map _) = _
  rw [sample_times_two]
  show some (([0, 1] : List ℝ).map fun t => cosInterpolate t
    ((layout (⌊(1.5 : ℝ) / 1⌋.toNat + 1) (([(0, 0), (2, -3)] : List (ℝ × ℝ)).map (knotRow 1))).map
      (·.1))
    ((layout (⌊(1.5 : ℝ) / 1⌋.toNat + 1) (([(0, 0), (2, -3)] : List (ℝ × ℝ)).map (knotRow 1))).map
      (·.2))) = some [0, -3 / 2]
  rw [knotRow_two (-3)]
  have h0 := (C33_cos [0, 2] [0, -3] (by norm_num) rfl).knot 0 (by simp) (by simp)
  have h1 := cosInterpolate_mid (-3)
  simp only [List.getElem_cons_zero] at h0
  simp only [List.map_cons, List.map_nil, h0, h1]

end RingLib
